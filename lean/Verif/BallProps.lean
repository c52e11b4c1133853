/-
Property C17: enumeration of the triangles around a vertex.
-/
import Verif.BallLemmas
import Verif.Tri2Props

namespace Mmg.Tri2

open Relation

open Classical in
/-- C17: when `MMG5_boulet` succeeds, its list starts at the given corner, contains every triangle
of the fan around the vertex exactly once and nothing else, at the local position of the vertex;
`opn` tells that the fan has an open edge. -/
theorem C17_ball {M : Mesh} (h : Valid M) {c : HE} (hk : M.live c.1) {lmax : Nat} {nom : Bool} {l : List HE}
    {opn : Bool} (e : boulet M lmax nom c = some (l, opn)) :
    l.head? = some c ∧ (l.map (·.1)).Nodup ∧ (∀ x, x ∈ l ↔ ReflTransGen M.Fan c x) ∧
    (∀ x ∈ l, M.live x.1 ∧ M.at x = M.at c) ∧
    (opn = true ↔ ∃ x ∈ l, ∃ i, i ≠ x.2 ∧ M.adj (x.1, i) = none) ∧ l.length ≤ lmax - 1 := by
  unfold boulet at e
  -- common end of the proof: `L` is the list in rotation order
  have key : ∀ (L : List HE) (hne : L ≠ []), c ∈ L → L.IsChain (fun x y => rotL M x = some y) → L.Nodup →
      (∀ x ∈ L, M.live x.1 ∧ M.at x = M.at c) →
      ((rotL M (L.getLast hne) = none ∧ rotbL M (L.head hne) = none) ∨ rotL M (L.getLast hne) = some (L.head hne)) →
      (L.map (·.1)).Nodup ∧ (∀ x, x ∈ L ↔ ReflTransGen M.Fan c x) ∧
      ((rotL M (L.getLast hne) = none) ↔ ∃ x ∈ L, ∃ i, i ≠ x.2 ∧ M.adj (x.1, i) = none) := by
    intro L hne hcL hch hnd hlv hend
    have hcl := chain_closed (rotL_iff h) hne hch hend
    refine ⟨?_, ?_, ?_⟩
    · apply hnd.map_on
      intro x hx y hy hxy
      exact corner_eq h (hlv y hy).1 hxy ((hlv x hx).2.trans (hlv y hy).2.symm)
    · intro x
      constructor
      · intro hx
        cases L with
        | nil => exact absurd rfl hne
        | cons d t =>
          have hr := chain_reach h (fun x hx => (hlv x hx).1) hch
          exact (fan_reach_symm h (hlv d (by simp)).1 (hr c hcL)).trans (hr x hx)
      · intro hx
        induction hx with
        | refl => exact hcL
        | tail hr hf ih =>
          rcases (fan_iff h (hlv _ ih).1).1 hf with e | e
          · exact (hcl _ _ e).1 ih
          · exact (hcl _ _ e).2 ih
    · constructor
      · intro hn
        refine ⟨L.getLast hne, List.getLast_mem _, (L.getLast hne).2 + 1, (f3 _).1, ?_⟩
        simpa [rotL, (hlv _ (List.getLast_mem hne)).1, Mesh.rot] using hn
      · rintro ⟨x, hx, i, hi, ha⟩
        rcases hend with hh | hh
        · exact hh.1
        exfalso
        have hL := hlv x hx
        have hlen := List.isChain_iff_getElem.1 hch
        have h0 : 0 < L.length := List.length_pos_iff.2 hne
        rw [List.getLast_eq_getElem, List.head_eq_getElem] at hh
        obtain ⟨j, hj, rfl⟩ := List.getElem_of_mem hx
        obtain ⟨g1, g2, g3, g4, g5, g6, g7, g8⟩ := f3 (L[j]).2
        rcases g8 i with r | r | r
        · exact hi r
        · have : rotL M L[j] = none := by
            unfold rotL
            rw [if_pos hL.1]
            unfold Mesh.rot
            rw [← r, ha]
            rfl
          by_cases hj1 : j + 1 < L.length
          · rw [hlen j hj1] at this; cases this
          · have : j = L.length - 1 := by omega
            subst this
            rw [hh] at this; cases this
        · have : rotbL M L[j] = none := by
            unfold rotbL
            rw [if_pos hL.1]
            unfold Mesh.rotb
            rw [← r, ha]
            rfl
          cases j with
          | zero => rw [(rotL_iff h _ _).1 hh] at this; cases this
          | succ j => rw [(rotL_iff h _ _).1 (hlen j hj)] at this; cases this
  split at e
  · cases e
  · -- closed
    rename_i l' e1
    cases e
    obtain ⟨⟨t, rfl, i1⟩, i2, i3, i4, i5⟩ := fwd_spec h c.1 _ c hk _ _ e1
    have hnot : c ∉ t := fun hm => i1 c hm rfl
    have hnd := chain_nodup_head (rotL_inj h) i2 hnot
    have hlast := i4 _ (List.getLast?_eq_some_getLast (List.cons_ne_nil c t))
    simp only [if_true] at hlast
    obtain ⟨y, hy1, hy2⟩ := hlast
    have hlv := i3 _ (List.getLast_mem (List.cons_ne_nil c t))
    have hy : y = c := by
      have hy1' := hy1
      simp only [rotL, hlv.1, if_true] at hy1'
      have := rot_spec h hlv.1 hy1'
      exact corner_eq h hk hy2 (this.2.1.trans hlv.2)
    subst hy
    obtain ⟨k1, k2, k3⟩ := key (y :: t) (by simp) (by simp) i2 hnd i3 (.inr (by simpa using hy1))
    refine ⟨rfl, k1, k2, i3, ?_, i5⟩
    rw [← k3, hy1]
    simp
  · -- open
    rename_i l' e1
    split at e
    · cases e
    simp only [Option.map_eq_some_iff] at e
    obtain ⟨l2, e2, e3⟩ := e
    cases e3
    obtain ⟨⟨t, rfl, i1⟩, i2, i3, i4, i5⟩ := fwd_spec h c.1 _ c hk _ _ e1
    obtain ⟨b1, b2, b3, b4⟩ := bwd_spec h _ c hk _ e2
    have hch : (l2.reverse ++ c :: t).IsChain (fun x y => rotL M x = some y) := by
      rw [List.isChain_append] at b1 ⊢
      refine ⟨b1.1, i2, ?_⟩
      intro x hx y hy
      exact b1.2.2 x hx y (by simpa using hy)
    have hne : l2.reverse ++ c :: t ≠ [] := by simp
    have hlast : rotL M ((l2.reverse ++ c :: t).getLast hne) = none := by
      have := i4 _ (List.getLast?_eq_some_getLast (List.cons_ne_nil c t))
      simpa using this
    have hhead : rotbL M ((l2.reverse ++ c :: t).head hne) = none := by
      apply b3
      rw [← List.head?_eq_some_head hne]
      cases l2.reverse <;> simp
    have hmem : ∀ x, x ∈ c :: t ++ l2 ↔ x ∈ l2.reverse ++ c :: t := by
      intro x; simp only [List.mem_append, List.mem_reverse]; tauto
    have hlv : ∀ x ∈ l2.reverse ++ c :: t, M.live x.1 ∧ M.at x = M.at c := by
      intro x hx
      rcases List.mem_append.1 hx with hx | hx
      · exact b2 x (by simpa using hx)
      · exact i3 x hx
    have hnd : (l2.reverse ++ c :: t).Nodup := by
      apply chain_nodup_last hch
      intro x hx
      rw [List.getLast?_eq_some_getLast hne] at hx
      cases hx
      exact hlast
    obtain ⟨k1, k2, k3⟩ := key _ hne (by simp) hch hnd hlv (.inl ⟨hlast, hhead⟩)
    refine ⟨rfl, ?_, ?_, ?_, ?_, ?_⟩
    · have hp : (l2.reverse ++ c :: t).Perm (c :: t ++ l2) :=
        (List.perm_append_comm).trans ((List.reverse_perm l2).append_left _)
      exact (hp.map _).nodup_iff.1 k1
    · intro x; rw [hmem]; exact k2 x
    · intro x hx; exact hlv x ((hmem x).1 hx)
    · have : (∃ x ∈ c :: t ++ l2, ∃ i, i ≠ x.2 ∧ M.adj (x.1, i) = none) ↔
          (∃ x ∈ l2.reverse ++ c :: t, ∃ i, i ≠ x.2 ∧ M.adj (x.1, i) = none) := by
        constructor
        · rintro ⟨x, hx, r⟩; exact ⟨x, (hmem x).1 hx, r⟩
        · rintro ⟨x, hx, r⟩; exact ⟨x, (hmem x).2 hx, r⟩
      rw [this, ← k3]
      exact ⟨fun _ => hlast, fun _ => rfl⟩
    · simp only [List.length_append] at b4 i5 ⊢; omega

open Classical in
/-- C17, failure: apart from non-manifold points of the surface remesher, `MMG5_boulet` only fails when the
fan really has at least `lmax` triangles. -/
theorem C17_ball_failure {M : Mesh} (h : Valid M) {c : HE} (hk : M.live c.1) {lmax : Nat} (h1 : 1 ≤ lmax)
    (e : boulet M lmax false c = none) :
    ∃ l : List HE, (l.map (·.1)).Nodup ∧ l.length = lmax ∧ ∀ x ∈ l, ReflTransGen M.Fan c x := by
  have fin : ∀ l : List HE, l.Nodup → (∀ x ∈ l, M.live x.1 ∧ M.at x = M.at c) → (l.map (·.1)).Nodup := by
    intro l hnd hlv
    apply hnd.map_on
    intro x hx y hy hxy
    exact corner_eq h (hlv y hy).1 hxy ((hlv x hx).2.trans (hlv y hy).2.symm)
  unfold boulet at e
  split at e
  · rename_i e1
    obtain ⟨t, i1, i2, i3, i4⟩ := fwd_none h c.1 _ c hk e1
    have hlv : ∀ x ∈ c :: t, M.live x.1 ∧ M.at x = M.at c := by
      intro x hx
      rcases List.mem_cons.1 hx with rfl | hx
      · exact ⟨hk, rfl⟩
      · rcases i4 x hx with hh | hh
        · exact hh
        · rw [hh] at i3
          rw [List.length_eq_zero_iff.1 i3] at hx
          simp at hx
    refine ⟨c :: t, fin _ (chain_nodup_head (rotL_inj h) i2 (fun hm => i1 c hm rfl)) hlv, ?_, ?_⟩
    · simp only [List.length_cons]; omega
    · exact chain_reach h (fun x hx => (hlv x hx).1) i2
  · cases e
  · rename_i l' e1
    simp only [Bool.false_eq_true, if_false, Option.map_eq_none_iff] at e
    obtain ⟨⟨t, rfl, i1⟩, i2, i3, i4, i5⟩ := fwd_spec h c.1 _ c hk _ _ e1
    obtain ⟨l2, b1, b2, b4⟩ := bwd_none h _ c hk e
    have hch : (l2.reverse ++ c :: t).IsChain (fun x y => rotL M x = some y) := by
      rw [List.isChain_append] at b1 ⊢
      refine ⟨b1.1, i2, ?_⟩
      intro x hx y hy
      exact b1.2.2 x hx y (by simpa using hy)
    have hlv : ∀ x ∈ l2.reverse ++ c :: t, M.live x.1 ∧ M.at x = M.at c := by
      intro x hx
      rcases List.mem_append.1 hx with hx | hx
      · exact b2 x (by simpa using hx)
      · exact i3 x hx
    have hnd : (l2.reverse ++ c :: t).Nodup := by
      apply chain_nodup_last hch
      intro x hx
      have := i4 x (by simpa using hx)
      simpa using this
    refine ⟨l2.reverse ++ c :: t, fin _ hnd hlv, ?_, ?_⟩
    · simp only [List.length_append, List.length_reverse, List.length_cons] at i5 b4 ⊢; omega
    · intro x hx
      obtain ⟨d, s, hds⟩ : ∃ d s, l2.reverse ++ c :: t = d :: s := List.exists_cons_of_ne_nil (by simp)
      rw [hds] at hx hlv hch
      have hr := chain_reach h (fun x hx => (hlv x hx).1) hch
      exact (fan_reach_symm h (hlv d (by simp)).1 (hr c (by rw [← hds]; simp))).trans (hr x hx)

/-! ### Non-vacuity -/

/-- A closed fan of three triangles around vertex 4 (centre split of one triangle). -/
example : ∃ M : Mesh, Valid M ∧ M.live 3 ∧ boulet M 1024 false (3, 0) = some ([(3, 0), (1, 1), (2, 2)], false) := by
  refine ⟨splitbar oneTri 1 4 2 3, ?_, by decide, by decide⟩
  exact splitbar_valid oneTri_valid (by decide) (by decide) (by decide) (by decide) (by decide) (by decide)
    (by decide) (by decide)

/-- An open fan, started at its last triangle. -/
example : Valid twoTri ∧ twoTri.live 2 ∧ boulet twoTri 1024 false (2, 1) = some ([(2, 1), (1, 1)], true) ∧
    boulet twoTri 2 false (2, 1) = none := by
  exact ⟨twoTri_valid, by decide, by decide, by decide⟩

/-! ### Neighbour vertices -/

open Classical in
/-- C44 (partial): around a vertex whose fan is closed, `MMG5_boulep` lists exactly the neighbour vertices,
one per triangle of the fan, and the triangles of the fan, each one once. For an open fan see
`C44_open_fan_false`. -/
theorem C44_neighbours_partial {M : Mesh} (h : Valid M) {c : HE} (hk : M.live c.1)
    (hcl : ∀ x, ReflTransGen M.Fan c x → ∀ i, i ≠ x.2 → M.adj (x.1, i) ≠ none) {lmax : Nat} {r : List (Nat × Nat)}
    (e : boulep M lmax c = some r) :
    (∀ w, w ∈ r.map (·.1) ↔ M.Neighbour c w) ∧ (r.map (·.2)).Nodup ∧
    (∀ t, t ∈ r.map (·.2) ↔ ∃ i, ReflTransGen M.Fan c (t, i)) := by
  unfold boulep at e
  split at e
  · cases e
  rename_i l closed e1
  obtain ⟨⟨t, rfl, i1⟩, i2, i3, i4, i5⟩ := fwd_spec h c.1 _ c hk _ _ e1
  have hre := chain_reach h (fun x hx => (i3 x hx).1) i2
  have hclosed : closed = true := by
    by_contra hb
    simp only [Bool.not_eq_true] at hb
    subst hb
    have hlast := i4 _ (List.getLast?_eq_some_getLast (List.cons_ne_nil c t))
    have hm := List.getLast_mem (List.cons_ne_nil c t)
    simp only [Bool.false_eq_true, if_false, rotL, (i3 _ hm).1, if_true, Mesh.rot, Option.map_eq_none_iff] at hlast
    exact hcl _ (hre _ hm) _ (f3 _).1 hlast
  subst hclosed
  have hb : boulet M lmax false c = some (c :: t, false) := by unfold boulet; rw [e1]
  obtain ⟨k1, k2, k3, k4, k5, k6⟩ := C17_ball h hk hb
  simp only [if_true, Option.some.injEq] at e
  subst e
  refine ⟨?_, ?_, ?_⟩
  · intro w
    simp only [List.map_map, List.mem_map, Function.comp]
    constructor
    · rintro ⟨x, hx, rfl⟩
      exact ⟨x, (k3 x).1 hx, x.2 + 2, (f3 _).2.1, rfl⟩
    · rintro ⟨x, hx, i, hi, rfl⟩
      obtain ⟨g1, g2, g3, g4, g5, g6, g7, g8⟩ := f3 x.2
      rcases g8 i with q | q | q
      · exact absurd q hi
      · -- the vertex is the one stored for the previous corner
        obtain ⟨y, hy⟩ := Option.ne_none_iff_exists'.1 (hcl x hx (x.2 + 2) g2)
        have hlx := (k4 x ((k3 x).2 hx)).1
        have hrb : M.rotb x = some (y.1, y.2 + 2) := by simp [Mesh.rotb, hy]
        obtain ⟨r1, r2, r3, r4⟩ := rotb_spec h hlx hrb
        obtain ⟨l1, l2, l3, l4, l5⟩ := h.lnk hlx _ _ _ hy
        obtain ⟨p1, p2, p3, p4, p5, p6, p7, p8⟩ := f3 y.2
        refine ⟨(y.1, y.2 + 2), (k3 _).2 (.tail hx ((fan_iff h hlx).2 (.inr ?_))), ?_⟩
        · simp only [rotL, r1, if_true]; exact r3
        · rw [q]; simp only [p7, g7] at l4 ⊢; exact l4
      · exact ⟨x, (k3 x).2 hx, by rw [q]⟩
  · simpa [List.map_map, Function.comp_def] using k2
  · intro s
    simp only [List.map_map, List.mem_map, Function.comp]
    constructor
    · rintro ⟨x, hx, rfl⟩; exact ⟨x.2, (k3 x).1 hx⟩
    · rintro ⟨i, hi⟩; exact ⟨(s, i), (k3 _).2 hi, rfl⟩

/-- The closed fan of three triangles again. -/
example : ∃ M : Mesh, Valid M ∧ boulep M 10240 (3, 0) = some [(3, 3), (1, 1), (2, 2)] := by
  refine ⟨splitbar oneTri 1 4 2 3, ?_, by decide⟩
  exact splitbar_valid oneTri_valid (by decide) (by decide) (by decide) (by decide) (by decide) (by decide)
    (by decide) (by decide)

/-- Open fan of three triangles (1,2,3), (1,3,4), (1,4,5). -/
def fan3 : Mesh where
  tri := fun k => if k = 1 then ⟨![1, 2, 3], fun _ => 0, fun _ => 0, 7⟩
    else if k = 2 then ⟨![1, 3, 4], fun _ => 0, fun _ => 0, 7⟩
    else if k = 3 then ⟨![1, 4, 5], fun _ => 0, fun _ => 0, 7⟩ else ⟨fun _ => 0, fun _ => 0, fun _ => 0, 0⟩
  adj := fun h => if h = (1, 1) then some (2, 2) else if h = (2, 2) then some (1, 1)
    else if h = (2, 1) then some (3, 2) else if h = (3, 2) then some (2, 1) else none

theorem fan3_valid : Valid fan3 := by
  have hl : ∀ k, fan3.live k → k = 1 ∨ k = 2 ∨ k = 3 := by
    intro k hk
    by_contra hne
    apply hk
    simp only [not_or] at hne
    simp [fan3, hne]
  constructor
  · intro k hk; rcases hl k hk with rfl | rfl | rfl <;> decide
  · intro k hk; rcases hl k hk with rfl | rfl | rfl <;> decide
  · rintro a b _ e
    simp only [fan3] at e
    repeat' split at e
    all_goals first | (subst_vars; simp at e; subst e; decide) | simp at e

/-- C44, counterexample: on an open fan the reverse loop of `MMG5_boulep` turns around the wrong vertex; here the
neighbour 2 and the triangle 1 are missing. -/
theorem C44_open_fan_false : Valid fan3 ∧ fan3.live 3 ∧ boulep fan3 10240 (3, 0) = some [(5, 3), (4, 2), (3, 0)] ∧
    fan3.Neighbour (3, 0) 2 ∧ boulet fan3 1024 false (3, 0) = some ([(3, 0), (2, 0), (1, 0)], true) := by
  refine ⟨fan3_valid, by decide, by decide, ?_, by decide⟩
  refine ⟨(1, 0), ?_, 1, by decide, by decide⟩
  have s1 : fan3.Fan (3, 0) (2, 0) := ⟨by decide, 2, 1, by decide, by decide, by decide⟩
  have s2 : fan3.Fan (2, 0) (1, 0) := ⟨by decide, 2, 1, by decide, by decide, by decide⟩
  exact .tail (.single s1) s2

end Mmg.Tri2
