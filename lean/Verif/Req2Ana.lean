/-
  C95, helper lemmas: relocation, collapse bodies and pattern splitting keep the required entities.
-/
import Verif.Req2Col
import Mathlib.Tactic.FinCases
import Mathlib.Data.List.GetD
import Mathlib.Data.List.Induction

set_option linter.unusedSimpArgs false

namespace Mmg.Req2

open Mmg.Tri2

variable {K : Type}

theorem Ready.mov {S : St K} (R : Ready S) {k : Nat} {i : Fin 3} {o : Option K} :
    Ready (movBody S k i o) ∧ Keeps S (movBody S k i o) := by
  unfold movBody
  simp only
  split
  · exact ⟨R, .refl S⟩
  rename_i hs
  split
  · exact ⟨R, .refl S⟩
  refine ⟨⟨R.valid, R.sym, R.ends⟩, fun p hp => ⟨if_neg ?_, hp, fun k i hk e => ⟨k, i, hk, e⟩⟩, fun h hk e => ⟨h, hk, e, rfl, rfl⟩,
    fun k hk e => ⟨hk, rfl, rfl, e⟩⟩
  rintro rfl
  simp [sin, hp] at hs

theorem Ready.col {S : St K} (R : Ready S) {k : Nat} {i : Fin 3} {short : Bool} {ball : Option (List HE)} (hk : S.M.live k)
    (hb : ∀ l, ball = some l → Ball S.M k i l) : Ready (colBody S k i short ball) ∧ Keeps S (colBody S k i short ball) := by
  unfold colBody
  split
  · exact ⟨R, .refl S⟩
  rename_i hs
  split
  · exact ⟨R, .refl S⟩
  simp only
  cases ball with
  | none => exact ⟨R, .refl S⟩
  | some l =>
    obtain ⟨⟨lmax, opn, hbl, ho⟩, h2, h3, hno, hap⟩ := hb l rfl
    obtain ⟨a1, a2, a3, a4, a5, a6, a7, a8⟩ := f3 i
    have hp : req (S.tag (S.M.at (k, i + 1))) = false := by
      simp only [colSkip, sin, Bool.or_eq_true, not_or, Bool.not_eq_true] at hs
      exact hs.1.1.2.2
    have fin : ∀ M', (∃ D B m, Merge S.M M' (S.M.at (k, i + 1)) ((S.M.tri k).v (i + 1 + 1)) D B m) →
        Ready { S with M := M', tag := colPts S ((S.M.tri k).v (i + 1)) ((S.M.tri k).v (i + 2)) } ∧
        Keeps S { S with M := M', tag := colPts S ((S.M.tri k).v (i + 1)) ((S.M.tri k).v (i + 2)) } := by
      rintro M' ⟨D, B, m, F⟩
      rw [a4] at F
      exact F.ready R hp
    cases hadj : S.M.adj (k, i) with
    | none =>
      rw [hadj] at ho hno
      simp only [Option.isNone_none] at ho
      subst ho
      have hop : S.M.adj (((k, i + 1) : HE).1, ((k, i + 1) : HE).2 + 2) = none := by
        show S.M.adj (k, i + 1 + 2) = none
        rw [a5]; exact hadj
      have hno' : ∀ c ∈ l, c.1 ≠ ((k, i + 1) : HE).1 → ∀ j, (S.M.tri c.1).v j ≠ (S.M.tri ((k, i + 1) : HE).1).v (((k, i + 1) : HE).2 + 1) := by
        intro c hc n j
        show _ ≠ (S.M.tri k).v (i + 1 + 1)
        rw [a4]
        exact hno c hc n (by simp) j
      simp only [Option.isNone_none, and_true]
      split
      · obtain ⟨M', D, B, m, e, F⟩ := merge_boundary R rfl hk hbl h2 hop hno' hp
        rw [e]
        exact fin M' ⟨D, B, m, F⟩
      · rename_i hl
        match l, h2, hl, hbl, hno' with
        | [a, b], _, _, hbl, hno' =>
          simp only
          obtain ⟨hh, hnd, -⟩ := C17_ball R.valid hk hbl
          simp only [List.head?_cons, Option.some.injEq] at hh
          subst hh
          have nb : b.1 ≠ k := by
            intro e
            have hlv := (C17_ball R.valid hk hbl).2.2.2.1
            have m1 := hlv (k, i + 1) (by simp)
            have m2 := hlv b (by simp)
            have e2 : b.2 = i + 1 := by
              by_contra n
              have l2 : S.M.live b.1 := m2.1
              refine R.valid.distinct b.1 l2 _ _ n ?_
              have := m2.2
              unfold Mesh.at at this
              rw [this, e]
            have : b = (k, i + 1) := Prod.ext e e2
            rw [this] at hnd
            simp at hnd
          exact fin _ (merge_two R rfl hk hbl hop (hno' b (by simp) nb) hp)
        | [_, _, _], _, hl, _, _ => simp at hl
        | _ :: _ :: _ :: _ :: _, _, hl, _, _ => simp at hl
    | some o =>
      rw [hadj] at ho hno h3
      simp only [Option.isNone_some] at ho
      subst ho
      have h3 := h3 (by simp)
      have hkl : S.M.adj (((k, i + 1) : HE).1, ((k, i + 1) : HE).2 + 2) = some (o.1, o.2) := by
        show S.M.adj (k, i + 1 + 2) = _
        rw [a5]; exact hadj
      have hno' : ∀ c ∈ l, c.1 ≠ ((k, i + 1) : HE).1 → c.1 ≠ o.1 → ∀ j, (S.M.tri c.1).v j ≠ (S.M.tri ((k, i + 1) : HE).1).v (((k, i + 1) : HE).2 + 1) := by
        intro c hc n n' j
        show _ ≠ (S.M.tri k).v (i + 1 + 1)
        rw [a4]
        exact hno c hc n (by rintro o' e; cases e; exact n') j
      have hap' : (S.M.tri ((k, i + 1) : HE).1).v (((k, i + 1) : HE).2 + 2) ≠ (S.M.tri o.1).v o.2 := by
        show (S.M.tri k).v (i + 1 + 2) ≠ _
        rw [a5]
        exact hap o hadj
      simp only [Option.isNone_some, and_false, or_false]
      split
      · obtain ⟨M', D, B, m, e, F⟩ := merge_interior R rfl hk hbl h3 hkl hno' hap' hp
        rw [e]
        exact fin M' ⟨D, B, m, F⟩
      · rename_i hl
        match l, h3, hl, hbl, hno' with
        | [a, b, c], _, _, hbl, hno' =>
          simp only
          obtain ⟨hh, -⟩ := C17_ball R.valid hk hbl
          obtain ⟨t0, ht, hch, hlast⟩ := boulet_closed R.valid hk hbl
          simp only [List.head?_cons, Option.some.injEq] at hh
          subst hh
          have hlv := (C17_ball R.valid hk hbl).2.2.2.1
          have h1 : S.M.rot (k, i + 1) = some b := hch.rel
          have hm : S.M.rot b = some c := (List.isChain_cons_cons.1 hch).2.rel
          have hl : S.M.rot c = some (k, i + 1) := hlast c rfl
          have hkb := (hlv b (by simp)).1
          have hkc := (hlv c (by simp)).1
          have e1 := R.valid.lnk hk _ _ _ (rot_spec R.valid hk h1).2.2.2
          have e2 := R.valid.lnk hkb _ _ _ (rot_spec R.valid hkb hm).2.2.2
          have e3 := R.valid.lnk hkc _ _ _ (rot_spec R.valid hkc hl).2.2.2
          have eo : c.1 = o.1 := by
            have := e3.2.2.1.symm.trans hkl
            simp only [Option.some.injEq, Prod.mk.injEq] at this
            exact this.1
          exact fin _ (merge_three R rfl hk hbl (hno' b (by simp) e1.2.1 (eo ▸ e2.2.1.symm)) hp)
        | _ :: _ :: _ :: _ :: _, _, hl, _, _ => simp at hl

/-! ### Pattern splitting -/

theorem pieces_edge {t : Tri} {vx : Fin 3 → Nat} {u : Tri} (hu : u ∈ pieces t vx) :
    u.ref = t.ref ∧ ∀ y, (∃ i, vx i = 0 ∧ u.v (y + 1) = t.v (i + 1) ∧ u.v (y + 2) = t.v (i + 2) ∧ u.tag y = t.tag i) ∨
      ((∃ i, vx i ≠ 0 ∧ (u.v (y + 1) = vx i ∨ u.v (y + 2) = vx i)) ∧ (u.tag y = 0 ∨ ∃ i, vx i ≠ 0 ∧ u.tag y = t.tag i)) := by
  unfold pieces at hu
  split_ifs at hu <;> simp only [split1, split2, split3, List.mem_cons, List.not_mem_nil, or_false] at hu <;>
    rcases hu with rfl | rfl | rfl | rfl <;> refine ⟨rfl, fun y => ?_⟩ <;> fin_cases y <;>
    simp [Tri.cut, Tri.setV, Tri.setE, Fin.exists_fin_succ, *]

theorem pieces_whole (t : Tri) (vx : Fin 3 → Nat) (i : Fin 3) (h : vx i = 0) :
    ∃ u ∈ pieces t vx, ∃ y, u.v (y + 1) = t.v (i + 1) ∧ u.v (y + 2) = t.v (i + 2) ∧ u.tag y = t.tag i := by
  unfold pieces
  fin_cases i <;> simp only [Fin.zero_eta, Fin.mk_one, Fin.reduceFinMk] at h <;> split_ifs <;>
    simp [split1, split2, split3, Tri.cut, Tri.setV, Tri.setE, Fin.exists_fin_succ, *] at *

theorem pieces_vertex (t : Tri) (vx : Fin 3 → Nat) (i : Fin 3) : ∃ u ∈ pieces t vx, ∃ y, u.v y = t.v i := by
  unfold pieces
  fin_cases i <;> split_ifs <;> simp [split1, split2, split3, Tri.cut, Tri.setV, Tri.setE, Fin.exists_fin_succ, *]

theorem pieces_none (t : Tri) (vx : Fin 3 → Nat) (h : ∀ i, vx i = 0) : pieces t vx = [t] := by
  simp [pieces, h]

theorem pieces_pos (t : Tri) (vx : Fin 3 → Nat) (h : ∀ i, t.v i ≠ 0) {u : Tri} (hu : u ∈ pieces t vx) : u.v 0 ≠ 0 := by
  unfold pieces at hu
  split_ifs at hu <;> simp only [split1, split2, split3, List.mem_cons, List.not_mem_nil, or_false] at hu <;>
    rcases hu with rfl | rfl | rfl | rfl <;> simp [Tri.cut, Tri.setV, Tri.setE, *]

/-- Entries of the table and points after step 1. -/
theorem wants_inv (S : St K) (ws : List (Want K)) :
    (∀ x y, (wants S ws).1 x y ≠ 0 → ∃ w ∈ ws, (∀ j, sin ((S.M.tri w.k).tag j) = false) ∧ (wants S ws).1 x y = w.ip ∧
      x = min (S.M.org (w.k, w.i)) (S.M.dst (w.k, w.i)) ∧ y = max (S.M.org (w.k, w.i)) (S.M.dst (w.k, w.i))) ∧
    ∀ p, (∀ w ∈ ws, w.ip ≠ p) → (wants S ws).2.1 p = S.pos p ∧ (wants S ws).2.2 p = S.tag p := by
  unfold wants
  induction ws using List.reverseRecOn with
  | nil => exact ⟨fun x y h => absurd rfl h, fun _ _ => ⟨rfl, rfl⟩⟩
  | append_singleton ws w ih =>
    rw [List.foldl_append]
    simp only [List.foldl_cons, List.foldl_nil]
    generalize List.foldl (want S.M) (fun _ _ => 0, S.pos, S.tag) ws = a at ih
    obtain ⟨i1, i2⟩ := ih
    have old : (∀ x y, a.1 x y ≠ 0 → ∃ w' ∈ ws ++ [w], (∀ j, sin ((S.M.tri w'.k).tag j) = false) ∧ a.1 x y = w'.ip ∧
        x = min (S.M.org (w'.k, w'.i)) (S.M.dst (w'.k, w'.i)) ∧ y = max (S.M.org (w'.k, w'.i)) (S.M.dst (w'.k, w'.i))) := by
      intro x y h
      obtain ⟨w', m, r⟩ := i1 x y h
      exact ⟨w', List.mem_append_left _ m, r⟩
    have old2 : ∀ p, (∀ w' ∈ ws ++ [w], w'.ip ≠ p) → a.2.1 p = S.pos p ∧ a.2.2 p = S.tag p :=
      fun p h => i2 p fun w' m => h w' (List.mem_append_left _ m)
    unfold want
    simp only
    split
    · exact ⟨old, old2⟩
    rename_i hs
    split
    · exact ⟨old, old2⟩
    refine ⟨fun x y h => ?_, fun p h => ?_⟩
    · simp only [Tab.put] at h ⊢
      split at h
      · rename_i e
        rw [if_pos e]
        refine ⟨w, by simp, ?_, rfl, e⟩
        simp only [Bool.or_eq_true, not_or, Bool.not_eq_true] at hs
        intro j
        fin_cases j
        · exact hs.1.1
        · exact hs.1.2
        · exact hs.2
      · rename_i e
        rw [if_neg e]
        exact old x y h
    · have n : p ≠ w.ip := fun e => h w (by simp) e.symm
      simp only [if_neg n]
      exact old2 p h

theorem Ready.ana {S : St K} (R : Ready S) {ws : List (Want K)} {old : Nat → Bool} {own : Nat → Option (Nat × Nat)}
    {adj : HE → Option HE} (hw : ∀ w ∈ ws, S.M.live w.k ∧ Free S w.ip)
    (hi : ∀ h h', S.M.live h.1 → S.M.live h'.1 → S.M.org h' = S.M.org h → S.M.dst h' = S.M.dst h → h' = h)
    (hf : ∀ h h', S.M.live h.1 → S.M.live h'.1 → S.M.org h' = S.M.dst h → S.M.dst h' = S.M.org h → S.M.adj h = some h')
    (ho : ∀ x k j, own x = some (k, j) → ¬ S.M.live x ∧ S.M.live k ∧ 0 < j ∧
      j < (pieces (S.M.tri k) (marks S.M (wants S ws).1 old k)).length)
    (ha : ∀ k j, S.M.live k → 0 < j → j < (pieces (S.M.tri k) (marks S.M (wants S ws).1 old k)).length → ∃ x, own x = some (k, j))
    (hv : Valid (anaBody S ws old own adj).M) : Ready (anaBody S ws old own adj) ∧ Keeps S (anaBody S ws old own adj) := by
  obtain ⟨inv, pts⟩ := wants_inv S ws
  generalize hvx : marks S.M (wants S ws).1 old = vx at *
  have hM : (anaBody S ws old own adj).M.tri = cutAll S.M vx own := by rw [← hvx]; rfl
  generalize hS' : anaBody S ws old own adj = S' at *
  have hpos : S'.pos = (wants S ws).2.1 := by rw [← hS']; rfl
  have htag : S'.tag = (wants S ws).2.2 := by rw [← hS']; rfl
  -- a point of the table is a new one
  have new : ∀ k i, vx k i ≠ 0 → (∃ w ∈ ws, (∀ j, sin ((S.M.tri w.k).tag j) = false) ∧ vx k i = w.ip ∧
      min (S.M.org (k, i)) (S.M.dst (k, i)) = min (S.M.org (w.k, w.i)) (S.M.dst (w.k, w.i)) ∧
      max (S.M.org (k, i)) (S.M.dst (k, i)) = max (S.M.org (w.k, w.i)) (S.M.dst (w.k, w.i))) := by
    intro k i h
    rw [← hvx] at h ⊢
    unfold marks at h ⊢
    simp only at h ⊢
    split at h
    · rename_i c
      rw [if_pos c]
      exact inv _ _ h
    · exact absurd rfl h
  have notv : ∀ k i, vx k i ≠ 0 → ∀ x, S.M.live x → ∀ j, (S.M.tri x).v j ≠ vx k i := by
    intro k i h x hx j
    obtain ⟨w, m, -, e, -⟩ := new k i h
    rw [e]
    exact (hw w m).2.2.2 x hx j
  -- a required edge has no point
  have nopt : ∀ k i, S.M.live k → req ((S.M.tri k).tag i) = true → vx k i = 0 := by
    intro k i hk r
    by_contra h
    obtain ⟨w, m, s, -, e1, e2⟩ := new k i h
    have hn : req ((S.M.tri w.k).tag w.i) = false := by
      have := s w.i
      simp only [sin, Bool.or_eq_false_iff] at this
      exact this.2
    have : (S.M.org (w.k, w.i) = S.M.org (k, i) ∧ S.M.dst (w.k, w.i) = S.M.dst (k, i)) ∨
        (S.M.org (w.k, w.i) = S.M.dst (k, i) ∧ S.M.dst (w.k, w.i) = S.M.org (k, i)) := by omega
    rcases this with ⟨o, d⟩ | ⟨o, d⟩
    · have := hi (k, i) (w.k, w.i) hk (hw w m).1 o d
      rw [Prod.mk.injEq] at this
      rw [this.1, this.2, r] at hn
      cases hn
    · have := R.sym (k, i) (w.k, w.i) hk (hf (k, i) (w.k, w.i) hk (hw w m).1 o d) r
      rw [hn] at this
      cases this
  -- slots and pieces
  have slot : ∀ x, S'.M.live x → ∃ k, S.M.live k ∧ S'.M.tri x ∈ pieces (S.M.tri k) (vx k) := by
    intro x hx
    unfold Mesh.live at hx
    rw [hM] at hx ⊢
    unfold cutAll at hx ⊢
    cases e : own x with
    | some kj =>
      obtain ⟨k, j⟩ := kj
      obtain ⟨-, l, -, q⟩ := ho x k j e
      refine ⟨k, l, ?_⟩
      simp only [List.getD_eq_getElem _ _ q]
      exact List.getElem_mem q
    | none =>
      simp only [e] at hx ⊢
      split at hx
      · rename_i z; exact absurd z hx
      · rename_i z
        refine ⟨x, z, ?_⟩
        rw [if_neg z]
        have q : 0 < (pieces (S.M.tri x) (vx x)).length := by
          obtain ⟨u, hu, -⟩ := pieces_vertex (S.M.tri x) (vx x) 0
          exact List.length_pos_of_mem hu
        rw [List.getD_eq_getElem _ _ q]
        exact List.getElem_mem q
  have first : ∀ k, S.M.live k → S'.M.tri k = (pieces (S.M.tri k) (vx k)).getD 0 (S.M.tri k) := by
    intro k hk
    rw [hM]
    unfold cutAll
    cases e : own k with
    | some kj => exact absurd hk (ho k kj.1 kj.2 e).1
    | none => simp only [if_neg hk]
  have place : ∀ k, S.M.live k → ∀ u ∈ pieces (S.M.tri k) (vx k), ∃ x, S'.M.live x ∧ S'.M.tri x = u := by
    intro k hk u hu
    have hu0 := pieces_pos _ _ (R.valid.pos k hk).2 hu
    obtain ⟨j, q, e⟩ := List.getElem_of_mem hu
    by_cases j0 : j = 0
    · subst j0
      have := first k hk
      rw [List.getD_eq_getElem _ _ q, e] at this
      exact ⟨k, by unfold Mesh.live; rw [this]; exact hu0, this⟩
    · obtain ⟨x, hx⟩ := ha k j hk (by omega) q
      have : S'.M.tri x = u := by
        rw [hM]
        unfold cutAll
        rw [hx]
        simp only [List.getD_eq_getElem _ _ q, e]
      exact ⟨x, by unfold Mesh.live; rw [this]; exact hu0, this⟩
  have same : ∀ p, req (S.tag p) = true → S'.pos p = S.pos p ∧ S'.tag p = S.tag p := by
    intro p hp
    rw [hpos, htag]
    refine pts p fun w m e => ?_
    have := (hw w m).2.2.1
    rw [e, hp] at this
    cases this
  -- required edges of the new mesh are whole edges of the old one
  have whole : ∀ h : HE, S'.M.live h.1 → req ((S'.M.tri h.1).tag h.2) = true → ∃ g : HE, S.M.live g.1 ∧
      S'.M.org h = S.M.org g ∧ S'.M.dst h = S.M.dst g ∧ req ((S.M.tri g.1).tag g.2) = true := by
    intro h hl r
    obtain ⟨k, hk, hu⟩ := slot h.1 hl
    rcases (pieces_edge hu).2 h.2 with ⟨i, -, e1, e2, e3⟩ | ⟨-, e | ⟨i, n, e⟩⟩
    · exact ⟨(k, i), hk, e1, e2, e3 ▸ r⟩
    · rw [e, req_zero] at r; cases r
    · exact absurd (nopt k i hk (e ▸ r)) n
  refine ⟨⟨hv, ?_, ?_⟩, ?_, ?_, ?_⟩
  · intro h h' hl e r
    obtain ⟨l', -, o, d⟩ := hv.link h h' hl e
    obtain ⟨g, hg, e1, e2, e3⟩ := whole h hl r
    obtain ⟨k, hk, hu⟩ := slot h'.1 l'
    rcases (pieces_edge hu).2 h'.2 with ⟨i, -, f1, f2, f3⟩ | ⟨⟨i, n, f⟩, -⟩
    · rw [f3]
      refine R.sym g (k, i) hg (hf g (k, i) hg hk ?_ ?_) e3
      · exact f1.symm.trans (o.trans e2)
      · exact f2.symm.trans (d.trans e1)
    · rcases f with f | f
      · exact absurd ((o.trans e2).symm.trans f) (notv k i n g.1 hg _)
      · exact absurd ((d.trans e1).symm.trans f) (notv k i n g.1 hg _)
  · intro h hl r
    obtain ⟨g, hg, e1, e2, e3⟩ := whole h hl r
    obtain ⟨q1, q2⟩ := R.ends g hg e3
    rw [e1, e2, (same _ q1).2, (same _ q2).2]
    exact ⟨q1, q2⟩
  · intro p hp
    refine ⟨(same p hp).1, by rw [(same p hp).2]; exact hp, ?_⟩
    rintro k i hk rfl
    obtain ⟨u, hu, y, e⟩ := pieces_vertex (S.M.tri k) (vx k) i
    obtain ⟨x, hx, q⟩ := place k hk u hu
    exact ⟨x, y, hx, by rw [q, e]⟩
  · intro h hk r
    obtain ⟨u, hu, y, e1, e2, e3⟩ := pieces_whole (S.M.tri h.1) (vx h.1) h.2 (nopt _ _ hk r)
    obtain ⟨x, hx, q⟩ := place h.1 hk u hu
    exact ⟨(x, y), hx, by show req ((S'.M.tri x).tag y) = true; rw [q, e3]; exact r, by unfold Mesh.org; rw [q]; exact e1, by unfold Mesh.dst; rw [q]; exact e2⟩
  · intro k hk r
    have e := first k hk
    rw [pieces_none _ _ fun i => nopt k i hk (r i)] at e
    simp only [List.getD_cons_zero] at e
    exact ⟨by unfold Mesh.live; rw [e]; exact hk, by rw [e], by rw [e], by rw [e]; exact r⟩

theorem Step.ready {S S' : St K} (s : Step S S') (R : Ready S) : Ready S' ∧ Keeps S S' := by
  cases s with
  | col hk hb => exact R.col hk hb
  | swp hk hc => exact R.swp hk hc
  | spl hk hp h1 h2 h3 h4 h5 => exact R.spl hk hp h1 h2 h3 h4 h5
  | mov hk => exact R.mov
  | ana hw hi hf ho ha hv => exact R.ana hw hi hf ho ha hv

end Mmg.Req2
