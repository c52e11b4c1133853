/-
  C97, helper lemmas: each body of the loops of the surface remesher keeps the required entities.
-/
import Verif.ReqSModel
import Verif.Req2Ana
import Verif.SurfCol
import Verif.Surf

set_option linter.unusedSimpArgs false

namespace Mmg.ReqS

open Mmg.Tri2 Mmg.Req2 Relation

variable {K : Type}

theorem ms_false {t : Nat} (h : ms t = false) : crn t = false ∧ req t = false ∧ nom t = false := by
  simp only [ms, Bool.or_eq_false_iff] at h
  exact ⟨h.1.1, h.1.2, h.2⟩

/-- Other tags at the points, with at least the same required ones. -/
theorem retag {S S' : St K} (R : Ready S' ∧ Keeps S S') {M : Mesh} {pos : Nat → K} {tag : Nat → Nat} (hM : M = S'.M) (hp : pos = S'.pos)
    (h : ∀ x, req (S'.tag x) = true → req (tag x) = true) : Ready (⟨M, pos, tag⟩ : St K) ∧ Keeps S ⟨M, pos, tag⟩ := by
  subst hM hp
  obtain ⟨R, Q⟩ := R
  refine ⟨⟨R.valid, R.sym, fun x hx r => ?_⟩, ⟨fun p hp => ?_, Q.edge, Q.tria⟩⟩
  · have := R.ends x hx r
    exact ⟨h _ this.1, h _ this.2⟩
  · obtain ⟨a, b, c⟩ := Q.vertex p hp
    exact ⟨a, h _ b, c⟩

theorem swp_ready {S : St K} (R : Ready S) {k : Nat} {i : Fin 3} {chk : Bool} (hk : S.M.live k)
    (hc : chk = true → ∀ o, S.M.adj (k, i) = some o → (S.M.tri k).v i ≠ (S.M.tri o.1).v o.2) :
    Ready (swpBody S k i chk) ∧ Keeps S (swpBody S k i chk) := by
  have base := R.swp hk hc
  unfold swpBody
  split
  · exact ⟨R, .refl S⟩
  rename_i hs
  simp only [Bool.or_eq_true, not_or, Bool.not_eq_true] at hs
  obtain ⟨s1, s2, s3⟩ := ms_false hs.1
  split
  · exact ⟨R, .refl S⟩
  rename_i hchk
  split
  case h_2 => exact ⟨R, .refl S⟩
  rename_i M' e
  have : Req2.swpBody S k i chk = { S with M := M' } := by
    unfold Req2.swpBody
    have c1 : (sin ((S.M.tri k).tag i) || edg ((S.M.tri k).tag i)) = false := by simp [sin, s1, s2, hs.2]
    rw [c1, if_neg (by simp), if_neg hchk]
    have : Tri2.swapar (fun t => edg t || sin t) S.M k i = some (some M') := by
      unfold Surf.swapar at e
      unfold Tri2.swapar
      have b1 : (edg ((S.M.tri k).tag i) || ms ((S.M.tri k).tag i)) = false := by simp [hs.1, hs.2]
      have b2 : (edg ((S.M.tri k).tag i) || sin ((S.M.tri k).tag i)) = false := by simp [sin, s1, s2, hs.2]
      simp only [b1, b2, Bool.false_eq_true, if_false] at e ⊢
      cases ho : S.M.adj (k, i) with
      | none => simp [ho] at e
      | some o =>
        obtain ⟨a, j⟩ := o
        simp only [ho] at e ⊢
        cases c1 : S.M.adj (k, i + 1) with
        | none => simp [c1] at e
        | some k11 =>
          cases c2 : S.M.adj (a, j + 1) with
          | none => simp [c1, c2] at e
          | some k21 =>
            simp only [c1, c2] at e ⊢
            split at e
            · simp at e
            split at e
            · simp at e
            rw [← (Prod.mk.inj (Option.some.inj e)).2]
    rw [this]
  rw [this] at base
  exact base

theorem spl_core {S : St K} (R : Ready S) {k : Nat} {i : Fin 3} {ip iel kel : Nat} {o : K} (hk : S.M.live k) (hp : Free S ip)
    (h10 : iel ≠ 0) (h20 : kel ≠ 0) (h6 : iel ≠ kel) (n1 : ¬ S.M.live iel) (n2 : ¬ S.M.live kel) (hs : ms ((S.M.tri k).tag i) = false)
    {T : Nat → Nat} (hT : ∀ x, x ≠ ip → T x = S.tag x) (S' : St K)
    (e1 : S'.M = (Surf.split1b S.M ⟨fun _ => 0, T⟩ k i ip (some iel) (some kel)).2.1)
    (e2 : S'.pos = fun x => if x = ip then o else S.pos x)
    (e3 : S'.tag = (Surf.split1b S.M ⟨fun _ => 0, T⟩ k i ip (some iel) (some kel)).2.2.tag) : Ready S' ∧ Keeps S S' := by
  have base := R.spl (o := o) (i := i) hk hp h10 h20 h6 n1 n2
  obtain ⟨s1, s2, s3⟩ := ms_false hs
  unfold Req2.splBody at base
  have c1 : sin ((S.M.tri k).tag i) = false := by simp [sin, s1, s2]
  rw [c1, if_neg (by simp)] at base
  obtain ⟨b, M', P', er⟩ : ∃ b M' P', Surf.split1b S.M ⟨fun _ => 0, T⟩ k i ip (some iel) (some kel) = (b, M', P') := ⟨_, _, _, rfl⟩
  have hb : b = true := by
    unfold Surf.split1b at er
    simp only at er
    split at er
    · exact (Prod.mk.inj er).1.symm
    · exact (Prod.mk.inj er).1.symm
  subst hb
  have pts := Surf.split1b_pts er
  have em := Surf.split1b_eq (kel := kel) er (fun _ => rfl)
  rw [er] at e1 e3
  obtain ⟨M, pos, tag⟩ := S'
  simp only at e1 e2 e3
  refine retag base (e1.trans em) e2 fun x hx => ?_
  simp only at hx
  by_cases e : x = ip
  · rw [if_pos e, s2] at hx; cases hx
  · rw [if_neg e] at hx
    rw [e3, (pts.2.2 x e).2]
    show req (T x) = true
    rw [hT x e]
    exact hx

theorem spl_ready {S : St K} (R : Ready S) {k : Nat} {i : Fin 3} {ip iel kel : Nat} {o : K} (hk : S.M.live k) (hp : Free S ip)
    (h10 : iel ≠ 0) (h20 : kel ≠ 0) (h6 : iel ≠ kel) (n1 : ¬ S.M.live iel) (n2 : ¬ S.M.live kel) :
    Ready (splBody S k i ip iel kel o) ∧ Keeps S (splBody S k i ip iel kel o) := by
  unfold splBody
  simp only
  split_ifs with hs h2 h3 h4
  · exact ⟨R, .refl S⟩
  · exact ⟨R, .refl S⟩
  · exact ⟨R, .refl S⟩
  · exact ⟨R, .refl S⟩
  all_goals exact spl_core R hk hp h10 h20 h6 n1 n2 (by simpa using hs) (fun x n => if_neg n) _ rfl rfl rfl

/-- `colver2` of the surface remesher. -/
theorem merge_two {S : St K} (R : Ready S) {M : Mesh} (eM : S.M = M) {a b : HE} (T : Surf.Two M a b) (hp : req (S.tag (M.at a)) = false) :
    Merge M (Surf.colver2 M a b) (M.at a) ((M.tri b.1).v (b.2 + 2)) (· = b.1) (· = a) (fun e e' => e = b ∧ e' = (a.1, a.2 + 1)) := by
  obtain ⟨v1, v2⟩ := T.vals
  obtain ⟨a1, a2, a3, a4, a5, a6, a7, a8⟩ := f3 a.2
  have la : (Surf.colver2 M a b).live a.1 := (T.live _).2 ⟨T.ka, T.ne.symm⟩
  have V : ∀ x y, x ≠ b.1 → ((Surf.colver2 M a b).tri x).v y = if (x, y) = a then (M.tri b.1).v (b.2 + 2) else (M.tri x).v y := by
    intro x y n
    rw [Surf.colver2_tri T.ne, if_neg n]
    by_cases e : x = a.1
    · subst e
      simp only [if_true]
      by_cases e' : y = a.2
      · subst e'; simp
      · rw [if_neg e', if_neg (fun h => e' (congrArg Prod.snd h))]
    · rw [if_neg e, if_neg (fun h => e (congrArg Prod.fst h))]
  refine ⟨T.valid, T.live, ?_, ?_, ?_, ?_, ?_, ?_, ?_, ?_, ?_⟩
  · intro x y hx
    have n := ((T.live _).1 hx).2
    rw [V x y n]
    exact ⟨fun h => if_pos h, fun h => if_neg h⟩
  · intro x hx
    have n := ((T.live _).1 hx).2
    simp only [Surf.colver2, delTri_tag _ _ _ n, backLink_tri, Mesh.setAdj, Mesh.setTri, Tri.setV, Tri.setE]
    split
    · rename_i q; rw [q]
    · rfl
  · rintro c rfl; rfl
  · intro h h' hh e
    have n := ((T.live _).1 hh).2
    rw [Surf.colver2_adj T.ne, if_neg n] at e
    split at e
    · rename_i q
      right; right
      exact ⟨b, ⟨rfl, (Option.some.inj e).symm⟩, q⟩
    · split at e
      · rename_i q
        right; left
        exact ⟨b, ⟨rfl, q⟩, e⟩
      · rename_i q
        left
        exact ⟨e, fun x hx => q hx.2⟩
  · rintro ⟨x, y⟩ hh
    have n := ((T.live _).1 hh).2
    simp only [Surf.colver2, delTri_tag _ _ _ n, backLink_tri, Mesh.setAdj, Mesh.setTri, Tri.setV, Tri.setE]
    by_cases e : x = a.1
    · subst e
      by_cases e' : y = a.2 + 1
      · subst e'
        simp [req_or]
      · simp [e']
    · simp [e]
  · rintro e e' ⟨rfl, rfl⟩
    exact ⟨T.kb, v1⟩
  · rintro e e' ⟨rfl, rfl⟩
    refine ⟨la, ?_, ?_, Or.inr ?_⟩
    · show ((Surf.colver2 M a e).tri a.1).v (a.2 + 1 + 1) = (M.tri e.1).v (e.2 + 1)
      rw [V _ _ T.ne.symm, a4, if_neg (fun h => a2 (congrArg Prod.snd h)), v2]
    · show ((Surf.colver2 M a e).tri a.1).v (a.2 + 1 + 2) = (M.tri e.1).v (e.2 + 2)
      rw [V _ _ T.ne.symm, a5, if_pos rfl]
    · show (M.tri a.1).v (a.2 + 1 + 2) = M.at a
      rw [a5]; rfl
  · rintro e e2 e' ⟨rfl, -⟩ ⟨rfl, -⟩; rfl
  · rintro x hx rfl
    exact ⟨b, (a.1, a.2 + 1), rfl, rfl, rfl⟩

/-- What is assumed of the mesh when an edge is collapsed: an edge is passed once in each direction, the triangles of the vertex form
one fan, which is closed if the edge has two triangles; an edge with one triangle is in no other. -/
structure Fine (M : Mesh) (c : HE) : Prop where
  inj : Surf.Inj M
  one : Surf.One M c
  border : M.adj (c.1, c.2 + 2) = none → ∀ x : HE, M.live x.1 → M.org x = (M.tri c.1).v (c.2 + 1) → M.dst x ≠ M.at c
  closed : M.adj (c.1, c.2 + 2) ≠ none → ∀ x, ReflTransGen M.Fan c x → ∀ i, i ≠ x.2 → M.adj (x.1, i) ≠ none

theorem collapse_merge {S : St K} (R : Ready S) {M : Mesh} (eM : S.M = M) {c : HE} (hk : M.live c.1) (F : Fine M c)
    (hp : req (S.tag (M.at c)) = false) {nom : Nat → Bool} {geo : List HE → Bool} {lmax n : Nat} {M' : Mesh}
    (e : Surf.collapse M nom geo lmax n c = some (some M')) : ∃ q D B m, Merge M M' (M.at c) q D B m := by
  have h : Valid M := eM ▸ R.valid
  obtain ⟨hI, h1, hb, ho⟩ := F
  obtain ⟨a1, a2, a3, a4, a5, a6, a7, a8⟩ := f3 c.2
  unfold Surf.collapse at e
  split at e
  · cases e
  · cases e
  rename_i l eb
  obtain ⟨-, ⟨opn, hbl⟩, -⟩ := Surf.boulechk_spec h hk eb
  obtain ⟨hh, hnd, hmem, hlv, hopn, hll⟩ := C17_ball h hk hbl
  have hcl : c ∈ l := List.mem_of_mem_head? (by rw [hh]; rfl)
  have hno : ∀ x ∈ l, x.1 ≠ c.1 → (∀ o, M.adj (c.1, c.2 + 2) = some o → x.1 ≠ o.1) → ∀ i, (M.tri x.1).v i ≠ (M.tri c.1).v (c.2 + 1) :=
    fun x hx hc ho' i => Surf.no_other h hI hk hb (hlv x hx).1 (hlv x hx).2 hc ho' i
  split at e
  · cases e
  by_cases hn : M.adj (c.1, c.2 + 2) = none
  · have hop : opn = true := hopn.2 ⟨c, hcl, c.2 + 2, a2, hn⟩
    subst hop
    rw [hn] at e
    simp only [Option.isNone_none, if_true, Bool.not_true] at e
    split at e
    · rename_i hlen
      obtain ⟨M1, D, B, m, ec, F⟩ := merge_boundary R eM hk hbl (by omega) hn
        (fun x hx hc => hno x hx hc (fun o q => by rw [hn] at q; cases q)) hp
      have : M1 = M' := by
        have := Option.some.inj e
        rw [ec] at this
        exact Option.some.inj this
      subst this
      exact ⟨_, D, B, m, F⟩
    · rename_i hlen
      split at e
      · simp at hlen
      · rename_i a b _
        have eac : a = c := by simpa using hh
        subst eac
        obtain ⟨t0, ht, hch, hlast⟩ := boulet_open h hk hbl hn
        have r1 : M.rot a = some b := hch.rel
        have r2 : M.rot b = none := hlast b rfl
        obtain ⟨s1, s2, s3, s4⟩ := rot_spec h hk r1
        have T : Surf.Two M a b := by
          refine ⟨h, hI, hk, s1, (h.lnk hk _ _ _ s4).2.1, s4, hn, ?_, ?_, ?_⟩
          · simpa [Mesh.rot] using r2
          · intro k i hk' ev
            have := (Surf.ball_iff h hk h1 hbl k i hk').2 ev
            simpa using this
          · intro q
            exact hb hn (b.1, b.2 + 1) s1 (by simp only [Mesh.org]; rw [(f3 b.2).2.2.2.1]; exact q)
              (by simp only [Mesh.dst]; rw [(f3 b.2).2.2.2.2.1]; exact s2)
        have hM : Surf.colver2 M a b = M' := by
          simp only [Bool.false_eq_true, if_false] at e
          split at e
          · exact Option.some.inj (Option.some.inj e)
          · split at e
            · cases e
            · exact Option.some.inj (Option.some.inj e)
        subst hM
        exact ⟨_, _, _, _, merge_two R eM T hp⟩
      · cases e
  · obtain ⟨o, hoo⟩ := Option.ne_none_iff_exists'.1 hn
    have hop : opn = false := by
      by_contra q
      simp only [Bool.not_eq_false] at q
      obtain ⟨x, hx, i, hi, hx'⟩ := hopn.1 q
      exact ho hn x ((hmem x).1 hx) i hi hx'
    subst hop
    rw [hoo] at e
    simp only [Option.isNone_some, Bool.false_eq_true, if_false, Nat.add_zero, Bool.not_false, if_true] at e
    split at e
    · rename_i hlen
      obtain ⟨M1, D, B, m, ec, F⟩ := merge_interior R eM hk hbl (by omega) hoo
        (fun x hx hc hx' => hno x hx hc (fun o' q => by rw [hoo] at q; cases q; exact hx'))
        (Surf.apex_ne h hI hk hbl (by omega) hoo) hp
      have : M1 = M' := by
        have := Option.some.inj e
        rw [ec] at this
        exact Option.some.inj this
      subst this
      exact ⟨_, D, B, m, F⟩
    · split at e
      · rename_i a b d _ _
        have eac : a = c := by simpa using hh
        subst eac
        obtain ⟨t0, ht, hch, hlast⟩ := boulet_closed h hk hbl
        have rd : M.rot d = some a := hlast d rfl
        have kd := (hlv d (by simp)).1
        obtain ⟨s1, s2, s3, s4⟩ := rot_spec h kd rd
        have l2' := (h.link (d.1, d.2 + 1) (a.1, a.2 + 2) kd s4).2.1
        rw [hoo] at l2'
        have eo : o = (d.1, d.2 + 1) := Option.some.inj l2'
        have eod : o.1 = d.1 := by rw [eo]
        simp only [List.map_cons, List.map_nil, List.nodup_cons, List.mem_cons, List.not_mem_nil, or_false, not_or, not_false_eq_true,
          and_true, List.nodup_nil] at hnd
        obtain ⟨⟨nab, nad⟩, nbd⟩ := hnd
        obtain ⟨D, B, m, F⟩ := merge_three R eM hk hbl (hno b (by simp) (Ne.symm nab) (fun o' q => by
          rw [hoo] at q; cases q; rw [eod]; exact nbd)) hp
        have : colver3 M a b d = M' := Option.some.inj (Option.some.inj e)
        subst this
        exact ⟨_, D, B, m, F⟩
      · simp at e
      · cases e

theorem col_ready {S : St K} (R : Ready S) {k : Nat} {i : Fin 3} {short : Bool} {geo : List HE → Bool} {lmax n : Nat} (hk : S.M.live k)
    (F : Fine S.M (k, i + 1)) : Ready (colBody S k i short geo lmax n) ∧ Keeps S (colBody S k i short geo lmax n) := by
  unfold colBody
  split
  · exact ⟨R, .refl S⟩
  rename_i hs
  split
  · exact ⟨R, .refl S⟩
  split
  case h_2 => exact ⟨R, .refl S⟩
  rename_i M' e
  have hp : req (S.tag (S.M.at (k, i + 1))) = false := by
    simp only [colSkip, Bool.or_eq_true, not_or, Bool.not_eq_true] at hs
    exact (ms_false hs.1.1.2).2.1
  obtain ⟨q, D, B, m, G⟩ := collapse_merge R rfl hk F hp e
  refine retag (G.ready R hp) rfl rfl fun x hx => ?_
  simp only at hx ⊢
  have hpn : req nul = false := by decide
  change req (if x = S.M.at (k, i + 1) then nul else S.tag x) = true
  unfold colPts at hx
  by_cases e1 : x = S.M.at (k, i + 1)
  · rw [if_pos e1, hpn] at hx; cases hx
  · rw [if_neg e1] at hx ⊢
    by_cases e2 : x = q
    · rw [if_pos e2, req_or, hp, Bool.or_false] at hx
      rw [e2]; exact hx
    · rwa [if_neg e2] at hx

/-! ### Pattern splitting -/

/-- What is needed of the patterns. -/
structure Cuts (P : Tri → (Fin 3 → Nat) → List Tri) : Prop where
  edge : ∀ {t : Tri} {vx : Fin 3 → Nat} {u : Tri}, u ∈ P t vx →
    u.ref = t.ref ∧ ∀ y, (∃ i, vx i = 0 ∧ u.v (y + 1) = t.v (i + 1) ∧ u.v (y + 2) = t.v (i + 2) ∧ u.tag y = t.tag i) ∨
      ((∃ i, vx i ≠ 0 ∧ (u.v (y + 1) = vx i ∨ u.v (y + 2) = vx i)) ∧ (u.tag y = 0 ∨ ∃ i, vx i ≠ 0 ∧ u.tag y = t.tag i))
  whole : ∀ (t : Tri) (vx : Fin 3 → Nat) (i : Fin 3), vx i = 0 →
    ∃ u ∈ P t vx, ∃ y, u.v (y + 1) = t.v (i + 1) ∧ u.v (y + 2) = t.v (i + 2) ∧ u.tag y = t.tag i
  vertex : ∀ (t : Tri) (vx : Fin 3 → Nat) (i : Fin 3), ∃ u ∈ P t vx, ∃ y, u.v y = t.v i
  none : ∀ (t : Tri) (vx : Fin 3 → Nat), (∀ i, vx i = 0) → P t vx = [t]
  pos : ∀ (t : Tri) (vx : Fin 3 → Nat), (∀ i, t.v i ≠ 0) → ∀ {u : Tri}, u ∈ P t vx → u.v 0 ≠ 0

theorem surf_cuts : Cuts Surf.splitAny := by
  refine ⟨?_, ?_, ?_, ?_, ?_⟩
  · intro t vx u hu
    unfold Surf.splitAny at hu
    by_cases h0 : vx 0 = 0 <;> by_cases h1 : vx 1 = 0 <;> by_cases h2 : vx 2 = 0 <;>
      simp only [h0, h1, h2, ne_eq, not_true_eq_false, not_false_eq_true, and_true, and_false, and_self, false_and, true_and, if_true, if_false,
        Surf.split1, Surf.split2, Surf.split3, List.mem_cons, List.not_mem_nil, or_false] at hu <;>
      rcases hu with rfl | rfl | rfl | rfl <;> refine ⟨rfl, fun y => ?_⟩ <;> fin_cases y <;>
      simp [Tri.cut, Tri.setV, Tri.setE, Fin.exists_fin_succ, *]
  · intro t vx i hi
    unfold Surf.splitAny
    fin_cases i <;> simp only [Fin.zero_eta, Fin.mk_one, Fin.reduceFinMk] at hi <;>
    by_cases h0 : vx 0 = 0 <;> by_cases h1 : vx 1 = 0 <;> by_cases h2 : vx 2 = 0 <;>
      simp [Surf.split1, Surf.split2, Surf.split3, Tri.cut, Tri.setV, Tri.setE, Fin.exists_fin_succ, *] at *
  · intro t vx i
    unfold Surf.splitAny
    fin_cases i <;>
    by_cases h0 : vx 0 = 0 <;> by_cases h1 : vx 1 = 0 <;> by_cases h2 : vx 2 = 0 <;>
      simp [Surf.split1, Surf.split2, Surf.split3, Tri.cut, Tri.setV, Tri.setE, Fin.exists_fin_succ, *]
  · intro t vx h
    simp [Surf.splitAny, h]
  · intro t vx h u hu
    unfold Surf.splitAny at hu
    by_cases h0 : vx 0 = 0 <;> by_cases h1 : vx 1 = 0 <;> by_cases h2 : vx 2 = 0 <;>
      simp only [h0, h1, h2, ne_eq, not_true_eq_false, not_false_eq_true, and_true, and_false, and_self, false_and, true_and, if_true, if_false,
        Surf.split1, Surf.split2, Surf.split3, List.mem_cons, List.not_mem_nil, or_false] at hu <;>
      rcases hu with rfl | rfl | rfl | rfl <;> simp [Tri.cut, Tri.setV, Tri.setE, *]

/-- An edge required in one triangle is required in all triangles that have it. -/
def Even (M : Mesh) : Prop := ∀ h h' : HE, M.live h.1 → M.live h'.1 →
  (M.org h' = M.dst h ∧ M.dst h' = M.org h ∨ M.org h' = M.org h ∧ M.dst h' = M.dst h) →
  req ((M.tri h.1).tag h.2) = true → req ((M.tri h'.1).tag h'.2) = true

theorem cut_ready {P : Tri → (Fin 3 → Nat) → List Tri} (C : Cuts P) {S S' : St K} (R : Ready S) {vx : Nat → Fin 3 → Nat}
    {own : Nat → Option (Nat × Nat)} (hM : S'.M.tri = cutAll P S.M vx own) (hv : Valid S'.M)
    (ho : ∀ x k j, own x = some (k, j) → ¬ S.M.live x ∧ S.M.live k ∧ 0 < j ∧ j < (P (S.M.tri k) (vx k)).length)
    (ha : ∀ k j, S.M.live k → 0 < j → j < (P (S.M.tri k) (vx k)).length → ∃ x, own x = some (k, j))
    (notv : ∀ k i, vx k i ≠ 0 → ∀ x, S.M.live x → ∀ j, (S.M.tri x).v j ≠ vx k i)
    (nopt : ∀ k i, S.M.live k → req ((S.M.tri k).tag i) = true → vx k i = 0) (hu : Even S.M)
    (same : ∀ p, req (S.tag p) = true → S'.pos p = S.pos p ∧ S'.tag p = S.tag p) : Ready S' ∧ Keeps S S' := by
  have slot : ∀ x, S'.M.live x → ∃ k, S.M.live k ∧ S'.M.tri x ∈ P (S.M.tri k) (vx k) := by
    intro x hx
    unfold Mesh.live at hx
    rw [hM] at hx ⊢
    unfold cutAll at hx ⊢
    cases e : own x with
    | some kj =>
      obtain ⟨k, j⟩ := kj
      obtain ⟨-, l, -, q⟩ := ho x k j e
      refine ⟨k, l, ?_⟩
      simp only [List.getD_eq_getElem _ _ q]
      exact List.getElem_mem q
    | none =>
      simp only [e] at hx ⊢
      split at hx
      · rename_i z; exact absurd z hx
      · rename_i z
        refine ⟨x, z, ?_⟩
        rw [if_neg z]
        have q : 0 < (P (S.M.tri x) (vx x)).length := by
          obtain ⟨u, hu, -⟩ := C.vertex (S.M.tri x) (vx x) 0
          exact List.length_pos_of_mem hu
        rw [List.getD_eq_getElem _ _ q]
        exact List.getElem_mem q
  have first : ∀ k, S.M.live k → S'.M.tri k = (P (S.M.tri k) (vx k)).getD 0 (S.M.tri k) := by
    intro k hk
    rw [hM]
    unfold cutAll
    cases e : own k with
    | some kj => exact absurd hk (ho k kj.1 kj.2 e).1
    | none => simp only [if_neg hk]
  have place : ∀ k, S.M.live k → ∀ u ∈ P (S.M.tri k) (vx k), ∃ x, S'.M.live x ∧ S'.M.tri x = u := by
    intro k hk u hu
    have hu0 := C.pos _ _ (R.valid.pos k hk).2 hu
    obtain ⟨j, q, e⟩ := List.getElem_of_mem hu
    by_cases j0 : j = 0
    · subst j0
      have := first k hk
      rw [List.getD_eq_getElem _ _ q, e] at this
      exact ⟨k, by unfold Mesh.live; rw [this]; exact hu0, this⟩
    · obtain ⟨x, hx⟩ := ha k j hk (by omega) q
      have : S'.M.tri x = u := by
        rw [hM]
        unfold cutAll
        rw [hx]
        simp only [List.getD_eq_getElem _ _ q, e]
      exact ⟨x, by unfold Mesh.live; rw [this]; exact hu0, this⟩
  have whole : ∀ h : HE, S'.M.live h.1 → req ((S'.M.tri h.1).tag h.2) = true → ∃ g : HE, S.M.live g.1 ∧
      S'.M.org h = S.M.org g ∧ S'.M.dst h = S.M.dst g ∧ req ((S.M.tri g.1).tag g.2) = true := by
    intro h hl r
    obtain ⟨k, hk, hu⟩ := slot h.1 hl
    rcases (C.edge hu).2 h.2 with ⟨i, -, e1, e2, e3⟩ | ⟨-, e | ⟨i, n, e⟩⟩
    · exact ⟨(k, i), hk, e1, e2, e3 ▸ r⟩
    · rw [e, req_zero] at r; cases r
    · exact absurd (nopt k i hk (e ▸ r)) n
  refine ⟨⟨hv, ?_, ?_⟩, ?_, ?_, ?_⟩
  · intro h h' hl e r
    obtain ⟨l', -, o, d⟩ := hv.link h h' hl e
    obtain ⟨g, hg, e1, e2, e3⟩ := whole h hl r
    obtain ⟨k, hk, hu'⟩ := slot h'.1 l'
    rcases (C.edge hu').2 h'.2 with ⟨i, -, f1, f2, f3⟩ | ⟨⟨i, n, f⟩, -⟩
    · rw [f3]
      exact hu g (k, i) hg hk (.inl ⟨f1.symm.trans (o.trans e2), f2.symm.trans (d.trans e1)⟩) e3
    · rcases f with f | f
      · exact absurd ((o.trans e2).symm.trans f) (notv k i n g.1 hg _)
      · exact absurd ((d.trans e1).symm.trans f) (notv k i n g.1 hg _)
  · intro h hl r
    obtain ⟨g, hg, e1, e2, e3⟩ := whole h hl r
    obtain ⟨q1, q2⟩ := R.ends g hg e3
    rw [e1, e2, (same _ q1).2, (same _ q2).2]
    exact ⟨q1, q2⟩
  · intro p hp
    refine ⟨(same p hp).1, by rw [(same p hp).2]; exact hp, ?_⟩
    rintro k i hk rfl
    obtain ⟨u, hu, y, e⟩ := C.vertex (S.M.tri k) (vx k) i
    obtain ⟨x, hx, q⟩ := place k hk u hu
    exact ⟨x, y, hx, by rw [q, e]⟩
  · intro h hk r
    obtain ⟨u, hu, y, e1, e2, e3⟩ := C.whole (S.M.tri h.1) (vx h.1) h.2 (nopt _ _ hk r)
    obtain ⟨x, hx, q⟩ := place h.1 hk u hu
    exact ⟨(x, y), hx, by show req ((S'.M.tri x).tag y) = true; rw [q, e3]; exact r, by unfold Mesh.org; rw [q]; exact e1, by unfold Mesh.dst; rw [q]; exact e2⟩
  · intro k hk r
    have e := first k hk
    rw [C.none _ _ fun i => nopt k i hk (r i)] at e
    simp only [List.getD_cons_zero] at e
    exact ⟨by unfold Mesh.live; rw [e]; exact hk, by rw [e], by rw [e], by rw [e]; exact r⟩

/-- Entries of the table and points after step 1. -/
theorem wants_inv (S : St K) (ws : List (Want K)) :
    (∀ x y, (wants S ws).1 x y ≠ 0 → ∃ w ∈ ws, req ((S.M.tri w.k).tag w.i) = false ∧ (wants S ws).1 x y = w.ip ∧
      x = min (S.M.org (w.k, w.i)) (S.M.dst (w.k, w.i)) ∧ y = max (S.M.org (w.k, w.i)) (S.M.dst (w.k, w.i))) ∧
    ∀ p, (∀ w ∈ ws, w.ip ≠ p) → (wants S ws).2.1 p = S.pos p ∧ (wants S ws).2.2 p = S.tag p := by
  unfold wants
  induction ws using List.reverseRecOn with
  | nil => exact ⟨fun x y h => absurd rfl h, fun _ _ => ⟨rfl, rfl⟩⟩
  | append_singleton ws w ih =>
    rw [List.foldl_append]
    simp only [List.foldl_cons, List.foldl_nil]
    generalize List.foldl (want S.M) (fun _ _ => 0, S.pos, S.tag) ws = a at ih
    obtain ⟨i1, i2⟩ := ih
    have old : (∀ x y, a.1 x y ≠ 0 → ∃ w' ∈ ws ++ [w], req ((S.M.tri w'.k).tag w'.i) = false ∧ a.1 x y = w'.ip ∧
        x = min (S.M.org (w'.k, w'.i)) (S.M.dst (w'.k, w'.i)) ∧ y = max (S.M.org (w'.k, w'.i)) (S.M.dst (w'.k, w'.i))) := by
      intro x y h
      obtain ⟨w', m, r⟩ := i1 x y h
      exact ⟨w', List.mem_append_left _ m, r⟩
    have old2 : ∀ p, (∀ w' ∈ ws ++ [w], w'.ip ≠ p) → a.2.1 p = S.pos p ∧ a.2.2 p = S.tag p :=
      fun p h => i2 p fun w' m => h w' (List.mem_append_left _ m)
    unfold want
    simp only
    split
    · exact ⟨old, old2⟩
    split
    · exact ⟨old, old2⟩
    rename_i hs
    split
    · exact ⟨old, old2⟩
    refine ⟨fun x y h => ?_, fun p h => ?_⟩
    · simp only [Tab.put] at h ⊢
      split at h
      · rename_i e
        rw [if_pos e]
        exact ⟨w, by simp, by simpa using hs, rfl, e⟩
      · rename_i e
        rw [if_neg e]
        exact old x y h
    · have n : p ≠ w.ip := fun e => h w (by simp) e.symm
      simp only [if_neg n]
      exact old2 p h

theorem ana_ready {S : St K} (R : Ready S) {ws : List (Want K)} {rm : Nat → Bool} {own : Nat → Option (Nat × Nat)}
    {adj : HE → Option HE} (hw : ∀ w ∈ ws, S.M.live w.k ∧ Free S w.ip) (hr : ∀ p, rm p = true → ∃ w ∈ ws, w.ip = p) (hu : Even S.M)
    (ho : ∀ x k j, own x = some (k, j) → ¬ S.M.live x ∧ S.M.live k ∧ 0 < j ∧
      j < (Surf.splitAny (S.M.tri k) (marks S.M (drop rm (wants S ws)).1 k)).length)
    (ha : ∀ k j, S.M.live k → 0 < j → j < (Surf.splitAny (S.M.tri k) (marks S.M (drop rm (wants S ws)).1 k)).length →
      ∃ x, own x = some (k, j))
    (hv : Valid (anaBody S ws rm own adj).M) : Ready (anaBody S ws rm own adj) ∧ Keeps S (anaBody S ws rm own adj) := by
  obtain ⟨inv, pts⟩ := wants_inv S ws
  have new : ∀ k i, marks S.M (drop rm (wants S ws)).1 k i ≠ 0 → (∃ w ∈ ws, req ((S.M.tri w.k).tag w.i) = false ∧
      marks S.M (drop rm (wants S ws)).1 k i = w.ip ∧
      min (S.M.org (k, i)) (S.M.dst (k, i)) = min (S.M.org (w.k, w.i)) (S.M.dst (w.k, w.i)) ∧
      max (S.M.org (k, i)) (S.M.dst (k, i)) = max (S.M.org (w.k, w.i)) (S.M.dst (w.k, w.i))) := by
    intro k i h
    unfold marks drop Tab.get at h ⊢
    simp only at h ⊢
    split at h
    · exact absurd rfl h
    · rename_i c
      rw [if_neg c]
      exact inv _ _ h
  refine cut_ready surf_cuts R rfl hv ho ha ?_ ?_ hu ?_
  · intro k i h x hx j
    obtain ⟨w, m, -, e, -⟩ := new k i h
    rw [e]
    exact (hw w m).2.2.2 x hx j
  · intro k i hk r
    by_contra h
    obtain ⟨w, m, hn, -, e1, e2⟩ := new k i h
    have := hu (k, i) (w.k, w.i) hk (hw w m).1 (by omega) r
    rw [hn] at this
    cases this
  · intro p hp
    have np : ∀ w ∈ ws, w.ip ≠ p := by
      intro w m e
      have := (hw w m).2.2.1
      rw [e, hp] at this
      cases this
    obtain ⟨q1, q2⟩ := pts p np
    refine ⟨q1, ?_⟩
    show (if rm p = true then nul else (wants S ws).2.2 p) = S.tag p
    rw [if_neg, q2]
    intro h
    obtain ⟨w, m, e⟩ := hr p h
    exact np w m e

end Mmg.ReqS
