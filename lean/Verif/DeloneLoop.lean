/-
  The loops of the insertion of a vertex: vertices, flags, references and links.
-/
import Verif.DeloneGlue

namespace Mmg.Delone

open Mmg.Split3 Mmg.Swap23 Mmg.Shell Mmg.Hash

/-- Without any assumption on the events. -/
theorem run_weak (B0 : Nat → Nat) (es : List Ev) :
    (∀ x, x ∉ es.map Ev.at → (run ⟨fun _ => none, B0⟩ es).B x = B0 x) ∧
    (∀ κ x, (run ⟨fun _ => none, B0⟩ es).M κ = some x → Ev.dart κ x ∈ es) := by
  induction es using List.reverseRecOn with
  | nil => exact ⟨fun _ _ => rfl, (fun _ _ h => by cases h)⟩
  | append_singleton es e ih =>
    rw [run_append]
    generalize run ⟨fun _ => none, B0⟩ es = s at ih
    rw [show run s [e] = ev s e from rfl]
    cases e with
    | put x v =>
      refine ⟨fun x' hx => ?_, fun κ x' hm => List.mem_append_left _ (ih.2 _ _ hm)⟩
      rw [List.map_append, List.mem_append, not_or] at hx
      have : x' ≠ x := fun hc => hx.2 (by simp [Ev.at, hc])
      simp only [ev, Swap23.upd, if_neg this]
      exact ih.1 _ hx.1
    | dart κ x =>
      cases hM : s.M κ with
      | none =>
        simp only [ev, hM]
        refine ⟨fun x' hx => ?_, fun κ' x' hm => ?_⟩
        · rw [List.map_append, List.mem_append, not_or] at hx
          exact ih.1 _ hx.1
        · simp only [Hash.upd] at hm
          by_cases hk : κ' = κ
          · rw [if_pos hk] at hm; cases hm; subst hk; simp
          · rw [if_neg hk] at hm; exact List.mem_append_left _ (ih.2 _ _ hm)
      | some y =>
        simp only [ev, hM]
        refine ⟨fun x' hx => ?_, fun κ' x' hm => List.mem_append_left _ (ih.2 _ _ hm)⟩
        rw [List.map_append, List.mem_append, not_or] at hx
        have h1 : x' ≠ x := fun hc => hx.2 (by simp [Ev.at, hc])
        have h2 : x' ≠ y := fun hc => hx.1 (by rw [hc]; exact List.mem_map_of_mem (ih.2 _ _ hM))
        simp only [Swap23.upd, if_neg h1, if_neg h2]
        exact ih.1 _ hx.1

theorem Glue.put {sz : Nat} {es : List Ev} {s : GSt} {h : Hash} {A : Nat → Nat}
    (G : Glue sz es s h A) {k i : Nat} (hk : 1 ≤ k) (hi : i < 4) (v : Nat) :
    Glue sz (es ++ [.put (4 * k + i) v]) (ev s (.put (4 * k + i) v)) h
      (setAt A (adjIdx k i) v) := by
  have hkeys : keys (es ++ [Ev.put (4 * k + i) v]) = keys es := by
    rw [keys_append]; simp [keys]
  refine ⟨G.inv, G.siz, G.max, by rw [hkeys]; exact G.nxt, fun x hx => ?_, fun κ => ?_⟩
  · rw [cells_set hk hi hx]
    simp only [ev, Swap23.upd]
    split_ifs
    · rfl
    · exact G.cell x hx
  · rw [hkeys]; exact G.none κ

/-- Searches made for the internal faces `js` of the tetrahedron `iel`. -/
def darts (v : List Nat) (ip iel : Nat) (js : List Nat) : List Ev :=
  js.map fun j =>
    .dart (keyOf ((edgeOf v ip j).getD 0 0) ((edgeOf v ip j).getD 1 0)) (4 * iel + j)

theorem keys_mono (es fs : List Ev) :
    (keys es).toFinset.card ≤ (keys (es ++ fs)).toFinset.card := by
  apply Finset.card_le_card
  intro x hx
  rw [keys_append]
  simp only [List.mem_toFinset, List.mem_append] at hx ⊢
  exact .inl hx

theorem inner_spec {sz : Nat} (g : Option Nat) {v : List Nat} {ip iel i : Nat} (hk : 1 ≤ iel)
    {B0 : Nat → Nat} (js : List Nat) (hj : ∀ j ∈ js, j < 4)
    (he : ∀ j ∈ js, j ≠ i → (edgeOf v ip j).getD 0 0 ≠ 0 ∧ (edgeOf v ip j).getD 1 0 ≠ 0) :
    ∀ (es : List Ev) (h : Hash) (A : Nat → Nat),
      (∀ κ x, Ev.dart κ x ∈ es → 4 ≤ x) →
      Glue sz es (run ⟨fun _ => none, B0⟩ es) h A →
      (keys (es ++ darts v ip iel (js.filter (· ≠ i)))).toFinset.card ≤ 2 * sz →
      ∃ h' A', inner g v ip iel i js (h, A) = .ok (h', A') ∧
        Glue sz (es ++ darts v ip iel (js.filter (· ≠ i)))
          (run ⟨fun _ => none, B0⟩ (es ++ darts v ip iel (js.filter (· ≠ i)))) h' A' := by
  induction js with
  | nil =>
    intro es h A _ G _
    exact ⟨h, A, rfl, by simpa [darts] using G⟩
  | cons j js ih =>
    intro es h A h4 G hroom
    unfold inner
    by_cases hji : j ≠ i
    · rw [if_pos hji]
      have hf : (j :: js).filter (· ≠ i) = j :: js.filter (· ≠ i) := by simp [hji]
      rw [hf] at hroom ⊢
      obtain ⟨e0, e1⟩ := he j (by simp) hji
      have hcons : ∀ js', es ++ darts v ip iel (j :: js') =
          (es ++ [Ev.dart (keyOf ((edgeOf v ip j).getD 0 0) ((edgeOf v ip j).getD 1 0))
            (4 * iel + j)]) ++ darts v ip iel js' := by
        intro js'; simp [darts]
      rw [hcons] at hroom ⊢
      obtain ⟨h', A', r1, G'⟩ := hash_spec g G hk (hj j (by simp)) e0 e1
        (fun κ y hM => h4 κ y ((run_weak B0 es).2 _ _ hM)) ((keys_mono _ _).trans hroom)
      rw [r1]
      have hr : ev (run ⟨fun _ => none, B0⟩ es)
          (.dart (keyOf ((edgeOf v ip j).getD 0 0) ((edgeOf v ip j).getD 1 0)) (4 * iel + j)) =
          run ⟨fun _ => none, B0⟩ (es ++ [Ev.dart (keyOf ((edgeOf v ip j).getD 0 0)
            ((edgeOf v ip j).getD 1 0)) (4 * iel + j)]) := by rw [run_append]; rfl
      rw [hr] at G'
      refine ih (fun j' h' => hj j' (List.mem_cons_of_mem _ h'))
        (fun j' h' => he j' (List.mem_cons_of_mem _ h')) _ _ _ ?_ G' hroom
      intro κ x hx
      rcases List.mem_append.1 hx with hx | hx
      · exact h4 κ x hx
      · cases List.mem_singleton.1 hx; omega
    · rw [if_neg hji]
      have hf : (j :: js).filter (· ≠ i) = js.filter (· ≠ i) := by
        simp only [not_not] at hji; simp [hji]
      rw [hf] at hroom ⊢
      exact ih (fun j' h' => hj j' (List.mem_cons_of_mem _ h'))
        (fun j' h' => he j' (List.mem_cons_of_mem _ h')) _ _ _ h4 G hroom

/-! ### Events of the loops -/

section
variable (s0 : St) (ip : Nat) (new : Nat → Nat)

/-- Vertices of the new tetrahedron over face `d`. -/
def newV (d : Nat × Nat) : List Nat := (s0.V d.1).set d.2 ip

def faceEvs (n : Nat) (d : Nat × Nat) : List Ev :=
  [.put (4 * new n + d.2) (link s0.A d.1 d.2)] ++
  ((if link s0.A d.1 d.2 ≠ 0 then [.put (link s0.A d.1 d.2) (4 * new n + d.2)] else []) ++
   darts (newV s0 ip d) ip (new n) ([0, 1, 2, 3].filter (· ≠ d.2)))

def evs (E : List (Nat × Nat)) : List Ev := E.zipIdx.flatMap fun x => faceEvs s0 ip new x.2 x.1

theorem evs_snoc (E : List (Nat × Nat)) (d : Nat × Nat) :
    evs s0 ip new (E ++ [d]) = evs s0 ip new E ++ faceEvs s0 ip new E.length d := by
  simp [evs, List.zipIdx_append]

theorem evs_append_prefix (E F : List (Nat × Nat)) :
    ∃ fs, evs s0 ip new (E ++ F) = evs s0 ip new E ++ fs := by
  induction F using List.reverseRecOn with
  | nil => exact ⟨[], by simp⟩
  | append_singleton F d ih =>
    obtain ⟨fs, h⟩ := ih
    exact ⟨fs ++ faceEvs s0 ip new (E ++ F).length d, by
      rw [← List.append_assoc, evs_snoc, h, List.append_assoc]⟩

theorem mem_evs {E : List (Nat × Nat)} {e : Ev} :
    e ∈ evs s0 ip new E ↔ ∃ n d, E[n]? = some d ∧ e ∈ faceEvs s0 ip new n d := by
  unfold evs
  rw [List.mem_flatMap]
  constructor
  · rintro ⟨⟨d, n⟩, h, he⟩
    exact ⟨n, d, List.mem_zipIdx_iff_getElem?.1 h, he⟩
  · rintro ⟨n, d, h, he⟩
    exact ⟨(d, n), List.mem_zipIdx_iff_getElem?.2 h, he⟩

end

/-- Situation of an insertion. -/
structure Sit (s0 : St) (used : Nat → Prop) (base ip : Nat) (l : List Nat) (new : Nat → Nat) :
    Prop where
  mesh : Mesh s0.A s0.V used
  cav : Cavity s0 used base l
  verts : ∀ k ∈ l, ∀ x ∈ s0.V k, x ≠ 0
  ip : ∀ k ∈ l, ip ∉ s0.V k
  fresh : Fresh new used (extFaces s0 base l).length

section
variable {s0 : St} {used : Nat → Prop} {base ip : Nat} {l : List Nat} {new : Nat → Nat}

/-- What the loops have done after the faces `E`. -/
structure MInv (s0 : St) (ip : Nat) (new : Nat → Nat) (sz : Nat) (E : List (Nat × Nat)) (a : Acc) :
    Prop where
  n : a.n = E.length
  V : ∀ k, (∀ j < E.length, k ≠ new j) → a.s.V k = s0.V k
  Vn : ∀ j d, E[j]? = some d → a.s.V (new j) = newV s0 ip d
  F : ∀ k, (∀ j < E.length, k ≠ new j) → a.s.flag k = s0.flag k
  T : ∀ k, (∀ j < E.length, k ≠ new j) → a.s.tref k = s0.tref k
  Tn : ∀ j d, E[j]? = some d → a.s.tref (new j) = s0.tref d.1
  G : Glue sz (evs s0 ip new E) (run ⟨fun _ => none, cells s0.A⟩ (evs s0 ip new E)) a.h a.s.A

theorem record_mesh {room : Nat → Bool} {xts : Option XT} {iel old i : Nat} {a b : Acc}
    (h : record room xts iel old i a = some b) :
    b.n = a.n ∧ b.h = a.h ∧ b.s.A = a.s.A ∧ b.s.V = a.s.V ∧ b.s.flag = a.s.flag ∧
      b.s.tref = a.s.tref := by
  unfold record at h
  split at h
  · cases h; simp
  · split_ifs at h <;> cases h <;> simp

theorem mem_ext {s : St} {l : List Nat} {d : Nat × Nat} :
    d ∈ extFaces s base l ↔ d.1 ∈ l ∧ d.2 < 4 ∧ isExt s base (link s.A d.1 d.2) = true := by
  unfold extFaces
  simp only [List.mem_flatMap, List.mem_map, List.mem_filter, List.mem_range]
  constructor
  · rintro ⟨k, hk, i, ⟨hi, he⟩, rfl⟩; exact ⟨hk, hi, he⟩
  · rintro ⟨h1, h2, h3⟩; exact ⟨d.1, h1, d.2, ⟨h2, h3⟩, rfl⟩

theorem Sit.isExt_iff (H : Sit s0 used base ip l new) {k i : Nat} (hk : k ∈ l) (hi : i < 4) :
    isExt s0 base (link s0.A k i) = true ↔ (link s0.A k i = 0 ∨ link s0.A k i / 4 ∉ l) := by
  unfold isExt
  by_cases h0 : link s0.A k i = 0
  · simp [h0]
  · obtain ⟨hu, _⟩ := H.mesh.adj.ok k (H.cav.sub k hk) i hi h0
    have := H.mesh.adj.pos _ hu
    have hf := H.cav.flag _ hu
    have : link s0.A k i / 4 ≠ 0 := by omega
    simp only [Bool.or_eq_true, decide_eq_true_eq, this, false_or, h0]
    exact not_congr hf

theorem Sit.mem_ext (H : Sit s0 used base ip l new) {d : Nat × Nat} :
    d ∈ extFaces s0 base l ↔ Outer s0.A l d.1 d.2 := by
  rw [Delone.mem_ext]
  constructor
  · rintro ⟨h1, h2, h3⟩; exact ⟨h1, h2, (H.isExt_iff h1 h2).1 h3⟩
  · rintro ⟨h1, h2, h3⟩; exact ⟨h1, h2, (H.isExt_iff h1 h2).2 h3⟩

theorem edgeOf_len {v : List Nat} {ip i j : Nat} (hl : v.length = 4) (hip : ip ∉ v) (hi : i < 4)
    (hj : j < 4) (hij : j ≠ i) :
    ∃ a b, edgeOf (v.set i ip) ip j = [a, b] ∧ a ∈ v ∧ b ∈ v := by
  match v, hl with
  | [a, b, c, d], _ =>
    simp only [List.mem_cons, List.not_mem_nil, or_false, not_or] at hip
    obtain ⟨ha, hb, hc, hd⟩ := hip
    have R3 : List.range 3 = [0, 1, 2] := rfl
    interval_cases i <;> interval_cases j <;> first | exact absurd rfl hij | skip
    all_goals
      simp [edgeOf, R3, idirf, List.set, List.filter, Ne.symm ha, Ne.symm hb, Ne.symm hc, Ne.symm hd]

/-- The links of the cavity are not changed by the loops. -/
theorem Sit.row (H : Sit s0 used base ip l new) {E F : List (Nat × Nat)}
    (hE : E ++ F = extFaces s0 base l) {k f : Nat} (hk : k ∈ l) (hf : f < 4) :
    4 * k + f ∉ (evs s0 ip new E).map Ev.at := by
  intro hc
  obtain ⟨e, he, hat⟩ := List.mem_map.1 hc
  obtain ⟨n, d, hn, he⟩ := (mem_evs s0 ip new).1 he
  have hnl : n < E.length := (List.getElem?_eq_some_iff.1 hn).1
  have hnl' : n < (extFaces s0 base l).length := by rw [← hE, List.length_append]; omega
  have hd : d ∈ extFaces s0 base l := by
    rw [← hE]; exact List.mem_append_left _ (List.mem_of_getElem? hn)
  obtain ⟨hdl, hd4, hdo⟩ := H.mem_ext.1 hd
  have hfree := H.fresh.free n hnl'
  have hnew : ∀ j, j < 4 → 4 * k + f ≠ 4 * new n + j := by
    intro j hj h
    have : k = new n := by omega
    exact hfree (this ▸ H.cav.sub k hk)
  simp only [faceEvs, List.mem_append, List.mem_singleton] at he
  rcases he with rfl | he | he
  · exact hnew _ hd4 hat.symm
  · split_ifs at he with h0
    · rw [List.mem_singleton] at he
      subst he
      simp only [Ev.at] at hat
      rcases hdo with h | h
      · exact h0 h
      · apply h; rw [hat, show (4 * k + f) / 4 = k by omega]; exact hk
    · exact absurd he List.not_mem_nil
  · simp only [darts, List.mem_map, List.mem_filter] at he
    obtain ⟨j, ⟨hj, _⟩, rfl⟩ := he
    refine hnew j ?_ hat.symm
    simp only [List.mem_cons, List.not_mem_nil, or_false] at hj
    omega

theorem Sit.dart_pos (H : Sit s0 used base ip l new) {E F : List (Nat × Nat)}
    (hE : E ++ F = extFaces s0 base l) {κ : Key} {x : Nat} (hx : Ev.dart κ x ∈ evs s0 ip new E) :
    4 ≤ x := by
  obtain ⟨n, d, hn, he⟩ := (mem_evs s0 ip new).1 hx
  have hnl : n < E.length := (List.getElem?_eq_some_iff.1 hn).1
  have hnl' : n < (extFaces s0 base l).length := by rw [← hE, List.length_append]; omega
  have hp := H.fresh.pos n hnl'
  simp only [faceEvs, List.mem_append, List.mem_singleton] at he
  rcases he with he | he | he
  · cases he
  · split_ifs at he
    · rw [List.mem_singleton] at he; cases he
    · exact absurd he List.not_mem_nil
  · simp only [darts, List.mem_map, List.mem_filter] at he
    obtain ⟨j, ⟨hj, _⟩, he⟩ := he
    cases he; omega

/-- One face. -/
theorem face_spec (H : Sit s0 used base ip l new) (g : Option Nat) (room : Nat → Bool)
    (xts : Option XT) {E F : List (Nat × Nat)} {old i : Nat} {a : Acc} {vois : Nat → Nat}
    (hold : old ∈ l) (hi : i < 4) (hE : E ++ (old, i) :: F = extFaces s0 base l)
    (hext : isExt s0 base (link s0.A old i) = true) (hv : vois i = link s0.A old i)
    (hroom : (keys (evs s0 ip new (extFaces s0 base l))).toFinset.card ≤
      2 * (extFaces s0 base l).length)
    (I : MInv s0 ip new (extFaces s0 base l).length E a) :
    face g room new base ip old vois xts i a = .nomem ∨
    ∃ a', face g room new base ip old vois xts i a = .ok a' ∧
      MInv s0 ip new (extFaces s0 base l).length (E ++ [(old, i)]) a' := by
  set sz := (extFaces s0 base l).length with hsz
  have hlen : E.length < sz := by rw [hsz, ← hE, List.length_append, List.length_cons]; omega
  have hou := H.cav.sub old hold
  have hl4 := H.mesh.len old hou
  have hp1 := H.fresh.pos _ hlen
  have hfr := H.fresh.free _ hlen
  have hold_new : ∀ j < E.length, old ≠ new j := fun j hj h =>
    H.fresh.free j (by omega) (h ▸ hou)
  have hEp : E ++ [(old, i)] ++ F = extFaces s0 base l := by rw [← hE]; simp
  -- the flags of the neighbours have not changed
  have hiext : isExt a.s base (vois i) = true := by
    rw [hv]
    rw [← hext]
    unfold isExt
    by_cases h0 : link s0.A old i = 0
    · simp [h0]
    · obtain ⟨hu, _⟩ := H.mesh.adj.ok old hou i hi h0
      rw [I.F _ (fun j hj h => H.fresh.free j (by omega) (h ▸ hu))]
  unfold face
  rw [if_pos hiext]
  simp only [I.n]
  generalize hrec : record room xts (new E.length) old i
    { a with n := E.length + 1, s := copyTet ip (new E.length) old i a.s } = R
  match R, hrec with
  | none, _ => exact .inl rfl
  | some b, hrec =>
    right
    obtain ⟨bn, bh, bA, bV, bF, bT⟩ := record_mesh hrec
    simp only at bn bh bA bV bF bT
    have hrow : link a.s.A old i = link s0.A old i := by
      have h1 := I.G.cell (4 * old + i) (by have := H.mesh.adj.pos old hou; omega)
      rw [(run_weak _ _).1 _ (H.row hE hold hi)] at h1
      simpa [cells, show (4 * old + i) / 4 = old by omega, show (4 * old + i) % 4 = i by omega]
        using h1
    have hVn : b.s.V (new E.length) = newV s0 ip (old, i) := by
      rw [bV]
      simp only [copyTet, Swap23.upd, if_true, newV]
      rw [I.V old hold_new]
    -- events
    have hev : evs s0 ip new (E ++ [(old, i)]) = evs s0 ip new E ++
        faceEvs s0 ip new E.length (old, i) := evs_snoc _ _ _ _ _
    have hkroom : (keys (evs s0 ip new (E ++ [(old, i)]))).toFinset.card ≤ 2 * sz := by
      obtain ⟨fs, hfs⟩ := evs_append_prefix s0 ip new (E ++ [(old, i)]) F
      rw [hEp] at hfs
      rw [hfs] at hroom
      exact (keys_mono _ _).trans hroom
    set es1 := evs s0 ip new E ++ [Ev.put (4 * new E.length + i) (link s0.A old i)] with hes1
    have G1 : Glue sz es1 (run ⟨fun _ => none, cells s0.A⟩ es1) a.h
        (setAt a.s.A (adjIdx (new E.length) i) (link s0.A old i)) := by
      have := I.G.put hp1 hi (link s0.A old i)
      rw [hes1, run_append]; exact this
    set es2 := es1 ++ (if link s0.A old i ≠ 0 then
      [Ev.put (link s0.A old i) (4 * new E.length + i)] else []) with hes2
    have G2 : Glue sz es2 (run ⟨fun _ => none, cells s0.A⟩ es2) a.h
        (back (setAt a.s.A (adjIdx (new E.length) i) (link s0.A old i)) (link s0.A old i)
          (4 * new E.length + i)) := by
      by_cases h0 : link s0.A old i ≠ 0
      · obtain ⟨hu, _⟩ := H.mesh.adj.ok old hou i hi h0
        have hq := H.mesh.adj.pos _ hu
        have := G1.put hq (Nat.mod_lt (link s0.A old i) (by decide : 0 < 4)) (4 * new E.length + i)
        rw [show 4 * (link s0.A old i / 4) + link s0.A old i % 4 = link s0.A old i by omega] at this
        rw [hes2, if_pos h0, run_append]
        unfold back
        rw [if_pos h0]
        exact this
      · rw [hes2, if_neg h0, List.append_nil]
        unfold back
        rw [if_neg h0]
        exact G1
    have hA2 : back b.s.A (vois i) (4 * new E.length + i) =
        back (setAt a.s.A (adjIdx (new E.length) i) (link s0.A old i)) (link s0.A old i)
          (4 * new E.length + i) := by
      rw [bA, hv]; simp only [copyTet]; rw [hrow]
    have hes3 : evs s0 ip new (E ++ [(old, i)]) = es2 ++
        darts (newV s0 ip (old, i)) ip (new E.length) ([0, 1, 2, 3].filter (· ≠ i)) := by
      rw [hev, hes2, hes1]; simp [faceEvs, List.append_assoc]
    have h4 : ∀ κ x, Ev.dart κ x ∈ es2 → 4 ≤ x := by
      intro κ x hx
      rw [hes2, hes1] at hx
      refine H.dart_pos hE ((List.mem_append.1 ((List.mem_append.1 hx).resolve_right ?_)).resolve_right ?_)
      · intro h; split_ifs at h
        · rw [List.mem_singleton] at h; cases h
        · exact absurd h List.not_mem_nil
      · intro h; rw [List.mem_singleton] at h; cases h
    obtain ⟨h', A', r1, G3⟩ := inner_spec g (v := newV s0 ip (old, i)) (ip := ip) (i := i) hp1
      (B0 := cells s0.A) [0, 1, 2, 3] (by simp) (by
        intro j hj hji
        have hj4 : j < 4 := by
          simp only [List.mem_cons, List.not_mem_nil, or_false] at hj; omega
        obtain ⟨x, y, hxy, hx, hy⟩ := edgeOf_len hl4 (H.ip old hold) hi hj4 hji
        simp only [newV, hxy]
        exact ⟨H.verts old hold x hx, H.verts old hold y hy⟩) es2 a.h _ h4 G2 (by
        rw [← hes3]; exact hkroom)
    simp only [hVn, bh, hA2, r1]
    refine ⟨_, rfl, ?_, ?_, ?_, ?_, ?_, ?_, ?_⟩
    · simp [bn]
    · intro k hk
      simp only [List.length_append, List.length_singleton] at hk
      simp only [bV, copyTet, Swap23.upd]
      rw [if_neg (hk _ (by omega))]
      exact I.V k fun j hj => hk j (by omega)
    · intro j d hd
      simp only [bV, copyTet, Swap23.upd]
      by_cases hj : j < E.length
      · rw [List.getElem?_append_left hj] at hd
        rw [if_neg (fun h => by have := H.fresh.inj _ (by omega) _ hlen h; omega)]
        exact I.Vn j d hd
      · rw [List.getElem?_append_right (by omega)] at hd
        have hj' : j = E.length := by
          by_contra hc
          rw [List.getElem?_eq_none (by simp only [List.length_singleton]; omega)] at hd
          cases hd
        subst hj'
        simp only [Nat.sub_self, List.getElem?_cons_zero, Option.some.injEq] at hd
        subst hd
        rw [if_pos rfl, I.V old hold_new]
        rfl
    · intro k hk
      simp only [List.length_append, List.length_singleton] at hk
      simp only [bF, copyTet, Swap23.upd]
      rw [if_neg (hk _ (by omega))]
      exact I.F k fun j hj => hk j (by omega)
    · intro k hk
      simp only [List.length_append, List.length_singleton] at hk
      simp only [bT, copyTet, Swap23.upd]
      rw [if_neg (hk _ (by omega))]
      exact I.T k fun j hj => hk j (by omega)
    · intro j d hd
      simp only [bT, copyTet, Swap23.upd]
      by_cases hj : j < E.length
      · rw [List.getElem?_append_left hj] at hd
        rw [if_neg (fun h => by have := H.fresh.inj _ (by omega) _ hlen h; omega)]
        exact I.Tn j d hd
      · rw [List.getElem?_append_right (by omega)] at hd
        have hj' : j = E.length := by
          by_contra hc
          rw [List.getElem?_eq_none (by simp only [List.length_singleton]; omega)] at hd
          cases hd
        subst hj'
        simp only [Nat.sub_self, List.getElem?_cons_zero, Option.some.injEq] at hd
        subst hd
        rw [if_pos rfl, I.T old hold_new]
    · rw [hes3]; exact G3

/-- A face that is not external. -/
theorem face_skip (H : Sit s0 used base ip l new) (g : Option Nat) (room : Nat → Bool)
    (xts : Option XT) {E F : List (Nat × Nat)} {old i : Nat} {a : Acc} {vois : Nat → Nat}
    (hold : old ∈ l) (hi : i < 4) (hE : E ++ F = extFaces s0 base l)
    (hext : isExt s0 base (link s0.A old i) = false) (hv : vois i = link s0.A old i)
    (I : MInv s0 ip new (extFaces s0 base l).length E a) :
    face g room new base ip old vois xts i a = .ok a := by
  have hou := H.cav.sub old hold
  have : isExt a.s base (vois i) = false := by
    rw [hv, ← hext]
    unfold isExt
    by_cases h0 : link s0.A old i = 0
    · simp [h0]
    · obtain ⟨hu, _⟩ := H.mesh.adj.ok old hou i hi h0
      rw [I.F _ (fun j hj h => H.fresh.free j (by
        rw [← hE, List.length_append]; omega) (h ▸ hu))]
  unfold face
  rw [this]
  rfl

theorem faces_spec (H : Sit s0 used base ip l new) (g : Option Nat) (room : Nat → Bool)
    (xts : Option XT) {old : Nat} {vois : Nat → Nat} (hold : old ∈ l)
    (hv : ∀ i < 4, vois i = link s0.A old i)
    (hroom : (keys (evs s0 ip new (extFaces s0 base l))).toFinset.card ≤
      2 * (extFaces s0 base l).length) (is : List Nat) (hi : ∀ i ∈ is, i < 4) :
    ∀ (E F : List (Nat × Nat)) (a : Acc),
      E ++ ((is.filter fun i => isExt s0 base (link s0.A old i)).map fun i => (old, i)) ++ F =
        extFaces s0 base l →
      MInv s0 ip new (extFaces s0 base l).length E a →
      faces g room new base ip old vois xts is a = .nomem ∨
      ∃ a', faces g room new base ip old vois xts is a = .ok a' ∧
        MInv s0 ip new (extFaces s0 base l).length
          (E ++ ((is.filter fun i => isExt s0 base (link s0.A old i)).map fun i => (old, i))) a' := by
  induction is with
  | nil => intro E F a _ I; exact .inr ⟨a, rfl, by simpa using I⟩
  | cons i is ih =>
    intro E F a hE I
    have hi4 := hi i (by simp)
    unfold faces
    cases hx : isExt s0 base (link s0.A old i) with
    | true =>
      have hf : (i :: is).filter (fun i => isExt s0 base (link s0.A old i)) =
          i :: is.filter fun i => isExt s0 base (link s0.A old i) := by simp [hx]
      rw [hf, List.map_cons] at hE ⊢
      rcases face_spec H g room xts (E := E) hold hi4 (by
        rw [← hE]; simp only [List.append_assoc, List.cons_append]; rfl) hx (hv i hi4) hroom I with
        h | ⟨a', h, I'⟩
      · rw [h]; exact .inl rfl
      · rw [h]
        have := ih (fun i' h' => hi i' (List.mem_cons_of_mem _ h')) (E ++ [(old, i)]) F a' (by
          rw [← hE]; simp) I'
        simpa using this
    | false =>
      have hf : (i :: is).filter (fun i => isExt s0 base (link s0.A old i)) =
          is.filter fun i => isExt s0 base (link s0.A old i) := by simp [hx]
      rw [hf] at hE ⊢
      rw [face_skip H g room xts (E := E) hold hi4 (by rw [← hE, List.append_assoc]) hx (hv i hi4) I]
      exact ih (fun i' h' => hi i' (List.mem_cons_of_mem _ h')) E F a hE I

theorem tets_spec (H : Sit s0 used base ip l new) (g : Option Nat) (room : Nat → Bool)
    (hroom : (keys (evs s0 ip new (extFaces s0 base l))).toFinset.card ≤
      2 * (extFaces s0 base l).length) (ks : List Nat) (hks : ∀ k ∈ ks, k ∈ l) :
    ∀ (E F : List (Nat × Nat)) (a : Acc), E ++ extFaces s0 base ks ++ F = extFaces s0 base l →
      MInv s0 ip new (extFaces s0 base l).length E a →
      tets g room new base ip ks a = .nomem ∨
      ∃ a', tets g room new base ip ks a = .ok a' ∧
        MInv s0 ip new (extFaces s0 base l).length (E ++ extFaces s0 base ks) a' := by
  induction ks with
  | nil => intro E F a _ I; exact .inr ⟨a, rfl, by simpa [extFaces] using I⟩
  | cons old ks ih =>
    intro E F a hE I
    have hold := hks old (by simp)
    have hc : extFaces s0 base (old :: ks) =
        ((List.range 4).filter fun i => isExt s0 base (link s0.A old i)).map (fun i => (old, i)) ++
          extFaces s0 base ks := by simp [extFaces]
    rw [hc] at hE ⊢
    unfold tets
    have hrow : ∀ i < 4, (fun i => link a.s.A old i) i = link s0.A old i := by
      intro i hi
      have h1 := I.G.cell (4 * old + i)
        (by have := H.mesh.adj.pos old (H.cav.sub old hold); omega)
      rw [(run_weak _ _).1 _ (H.row (by rw [← hE]; simp only [List.append_assoc]; rfl) hold hi)] at h1
      simpa [cells, show (4 * old + i) / 4 = old by omega, show (4 * old + i) % 4 = i by omega]
        using h1
    rcases faces_spec H g room (if a.s.xt old ≠ 0 then some (a.s.X (a.s.xt old)) else none) hold hrow
      hroom [0, 1, 2, 3] (by simp) E (extFaces s0 base ks ++ F) { a with isused := false } (by
        rw [← hE]; simp [List.range_succ, List.append_assoc]) ⟨I.n, I.V, I.Vn, I.F, I.T, I.Tn, I.G⟩ with
      h | ⟨a', h, I'⟩
    · rw [h]; exact .inl rfl
    · rw [h]
      have := ih (fun k hk => hks k (List.mem_cons_of_mem _ hk)) _ F a' (by
        rw [← hE]; simp only [List.append_assoc]; rfl) I'
      simp only [List.append_assoc] at this
      exact this

end

end Mmg.Delone
