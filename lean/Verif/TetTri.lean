import Verif.TetTriModel
import Verif.Bdry
import Mathlib.Data.Finset.Range
import Mathlib.Data.Finset.Erase

/-!
# C106: the tetrahedra of a triangle of the final mesh
-/

namespace Mmg.Bdry

/-! ### Specification -/

/-- `q` is a face of a tetrahedron in use of the mesh, and its vertices (those of the tetrahedron but the one of number `q.2`) are `a`, `b`, `c`. -/
def IsFace (M : Mesh) (q : Nat × Nat) (t : Tri) : Prop :=
  1 ≤ q.1 ∧ q.1 ≤ M.ne ∧ M.tok q.1 = true ∧ q.2 < 4 ∧
    t.key = ((Finset.range 4).erase q.2).val.map (M.tv q.1)

theorem isFace_of {M : Mesh} {q : Nat × Nat} (hq : q ∈ M.tfaces) {t : Tri} (ht : t.key = fkey (M.tface q)) : IsFace M q t := by
  obtain ⟨⟨h1, h2⟩, h3, h4⟩ := mem_tfaces.1 hq
  refine ⟨h1, h2, h3, h4, ?_⟩
  rw [ht]
  obtain ⟨k, i⟩ := q
  have e0 : ((Finset.range 4).erase 0).val = {1, 2, 3} := by decide
  have e1 : ((Finset.range 4).erase 1).val = {0, 3, 2} := by decide
  have e2 : ((Finset.range 4).erase 2).val = {0, 1, 3} := by decide
  have e3 : ((Finset.range 4).erase 3).val = {0, 2, 1} := by decide
  have : i = 0 ∨ i = 1 ∨ i = 2 ∨ i = 3 := by have : i < 4 := h4; omega
  rcases this with rfl | rfl | rfl | rfl
  · show _ = (((Finset.range 4).erase 0).val).map (M.tv k)
    rw [e0]; simp [fkey, Mesh.tface, idir, key]
  · show _ = (((Finset.range 4).erase 1).val).map (M.tv k)
    rw [e1]; simp [fkey, Mesh.tface, idir, key]
  · show _ = (((Finset.range 4).erase 2).val).map (M.tv k)
    rw [e2]; simp [fkey, Mesh.tface, idir, key]
  · show _ = (((Finset.range 4).erase 3).val).map (M.tv k)
    rw [e3]; simp [fkey, Mesh.tface, idir, key]

/-! ### The triangles are those of C78 -/

theorem addTetC_fst (M : Mesh) (O : Opt) : ∀ l s, addTet M O l (s.1.map Prod.fst, s.2) = ((addTetC M O l s).1.map Prod.fst, (addTetC M O l s).2) := by
  intro l
  induction l with
  | nil => intro s; rfl
  | cons q l ih =>
    intro s
    unfold addTet addTetC
    dsimp only
    split_ifs with h1 h2
    · have := ih (s.1 ++ [(tnew M O q, 4 * q.1 + q.2)], s.2)
      simpa using this
    · have := ih (s.1 ++ [(tnew M O q, 4 * q.1 + q.2)], s.2.put (fkey (M.tface q)) (s.1.length + 1))
      simpa using this
    · exact ih s

theorem map_modify_fst (f : Tri → Tri) : ∀ (s : List (Tri × Nat)) n, (s.modify n fun t => (f t.1, t.2)).map Prod.fst = (s.map Prod.fst).modify n f := by
  intro s
  induction s with
  | nil => intro n; cases n <;> rfl
  | cons a s ih =>
    intro n
    cases n with
    | zero => rfl
    | succ n => simpa using ih n

theorem addPrismC_fst (M : Mesh) (O : Opt) (T : Tab) : ∀ l s, addPrism M O T l (s.map Prod.fst) = (addPrismC M O T l s).map Prod.fst := by
  intro l
  induction l with
  | nil => intro s; rfl
  | cons q l ih =>
    intro s
    unfold addPrism addPrismC
    simp only [List.map_eq_nil_iff]
    split_ifs
    · exact ih s
    · exact ih s
    · rw [← ih, map_modify_fst Tri.req]
    · exact ih s
    · exact ih s
    · have := ih (s ++ [(pnew M O q, 5 * q.1 + q.2)])
      simpa using this

/-- The triangles are those that the reconstruction of C78 finds. -/
theorem lastTria_fst (M : Mesh) (O : Opt) (n : Nat) (hn : n ≠ 0) : (lastTria M O).map Prod.fst = (bdryTria { M with tri := [] } O n).tri := by
  have h := addTetC_fst M O M.tfaces ([], fun _ => 0)
  have e : (bdryTria { M with tri := [] } O n).tri = addPrism M O (addTet M O M.tfaces ([], fun _ => 0)).2 M.pfaces (addTet M O M.tfaces ([], fun _ => 0)).1 := by
    have t1 : ∀ l s, addTet { M with tri := [] } O l s = addTet M O l s := by
      intro l
      induction l with
      | nil => intro s; rfl
      | cons q l ih => intro s; unfold addTet; rw [ih, ih]; rfl
    have t2 : ∀ T l s, addPrism { M with tri := [] } O T l s = addPrism M O T l s := by
      intro T l
      induction l with
      | nil => intro s; rfl
      | cons q l ih => intro s; unfold addPrism; simp only [ih]; rfl
    unfold bdryTria
    simp only [List.length_nil, ne_eq, hn, not_false_eq_true, if_true, putTris, t1, t2]
    rfl
  rw [e]
  simp only [List.map_nil] at h
  rw [h, addPrismC_fst]
  rfl

/-! ### The field `cc` -/

theorem addTetC_mem (M : Mesh) (O : Opt) : ∀ l s, (∀ x ∈ s.1, ∃ q ∈ M.tfaces, tadd M O q = true ∧ x = (tnew M O q, 4 * q.1 + q.2)) → (∀ q ∈ l, q ∈ M.tfaces) →
    ∀ x ∈ (addTetC M O l s).1, ∃ q ∈ M.tfaces, tadd M O q = true ∧ x = (tnew M O q, 4 * q.1 + q.2) := by
  intro l
  induction l with
  | nil => intro s h _; exact h
  | cons q l ih =>
    intro s h hl
    unfold addTetC
    split_ifs with h1 h2
    all_goals
      refine ih _ ?_ (fun q hq => hl q (List.mem_cons_of_mem _ hq))
    · intro x hx
      rcases List.mem_append.1 hx with hx | hx
      · exact h x hx
      · exact ⟨q, hl q (by simp), by simp at h1; exact h1.1, by simpa using hx⟩
    · intro x hx
      rcases List.mem_append.1 hx with hx | hx
      · exact h x hx
      · exact ⟨q, hl q (by simp), by simp at h1; exact h1.1, by simpa using hx⟩
    · exact h

/-- Triangles made from tetrahedra keep their place, vertices and `cc` in the loop on the prisms. -/
theorem addPrismC_get (M : Mesh) (O : Opt) (T : Tab) : ∀ l (s : List (Tri × Nat)) (j : Nat) (x : Tri × Nat), s[j]? = some x →
    ∃ t : Tri, (addPrismC M O T l s)[j]? = some (t, x.2) ∧ t.key = x.1.key := by
  intro l
  induction l with
  | nil => intro s j x h; exact ⟨x.1, h, rfl⟩
  | cons q l ih =>
    intro s j x h
    unfold addPrismC
    split_ifs
    · exact ih s j x h
    · exact ih s j x h
    · by_cases c : T (fkey (M.pface q)) - 1 = j
      · obtain ⟨t, h1, h2⟩ := ih (s.modify (T (fkey (M.pface q)) - 1) fun t => (t.1.req, t.2)) j (x.1.req, x.2)
          (by rw [List.getElem?_modify, h]; simp [c])
        exact ⟨t, h1, h2⟩
      · exact ih _ j x (by rw [List.getElem?_modify, h]; simp [c])
    · exact ih s j x h
    · exact ih s j x h
    · refine ih _ j x ?_
      have : j < s.length := by
        by_contra c
        rw [List.getElem?_eq_none (by omega)] at h; cases h
      rw [List.getElem?_append_left this]; exact h

/-- Number of triangles made from tetrahedra; they are the first ones. -/
def ntet (M : Mesh) (O : Opt) : Nat := (addTetC M O M.tfaces ([], fun _ => 0)).1.length

theorem from_tet (M : Mesh) (O : Opt) (j : Nat) (hj : j < ntet M O) :
    ∃ q ∈ M.tfaces, tadd M O q = true ∧ ∃ t, (lastTria M O)[j]? = some (t, 4 * q.1 + q.2) ∧ t.key = fkey (M.tface q) := by
  obtain ⟨q, h1, h2, h3⟩ := addTetC_mem M O M.tfaces ([], fun _ => 0) (by simp) (fun _ h => h) _ (List.getElem_mem hj)
  obtain ⟨t, h4, h5⟩ := addPrismC_get M O (addTetC M O M.tfaces ([], fun _ => 0)).2 M.pfaces (addTetC M O M.tfaces ([], fun _ => 0)).1 j _ (List.getElem?_eq_getElem hj)
  rw [h3] at h4 h5
  exact ⟨q, h1, h2, t, h4, h5⟩

theorem cc_get {q : Nat × Nat} (h1 : 1 ≤ q.1) (h4 : q.2 < 4) : 4 * q.1 + q.2 ≠ 0 ∧ ((4 * q.1 + q.2) / 4, (4 * q.1 + q.2) % 4) = q := by
  refine ⟨by omega, Prod.ext ?_ ?_⟩
  · show (4 * q.1 + q.2) / 4 = q.1; omega
  · show (4 * q.1 + q.2) % 4 = q.2; omega

theorem tet_get {L : List (Tri × Nat)} {j : Nat} {t : Tri} {q : Nat × Nat} (h1 : 1 ≤ q.1) (h4 : q.2 < 4) (h : L[j]? = some (t, 4 * q.1 + q.2)) :
    tetFromTria L (j + 1) = some q := by
  obtain ⟨a, b⟩ := cc_get h1 h4
  unfold tetFromTria
  simp only [Nat.add_sub_cancel, h, Option.map_some, Option.getD_some, if_neg a, b]

/-- C106: the tetrahedron and the face answered for a triangle made from the tetrahedra (all of them if there is no prism) are a tetrahedron of
the mesh and its face with the three vertices of the triangle; this face is one that must have a triangle. -/
theorem C106_tet_partial (M : Mesh) (O : Opt) (j : Nat) (hj : j < ntet M O) :
    ∃ t cc q, (lastTria M O)[j]? = some (t, cc) ∧ tetFromTria (lastTria M O) (j + 1) = some q ∧ IsFace M q t ∧ tadd M O q = true := by
  obtain ⟨q, h1, h2, t, h3, h4⟩ := from_tet M O j hj
  obtain ⟨⟨g1, _⟩, _, g4⟩ := mem_tfaces.1 h1
  exact ⟨t, _, q, h3, tet_get g1 g4 h3, isFace_of h1 h4, h2⟩

theorem addTetC_noprism (M : Mesh) (O : Opt) (h0 : M.np = 0) : ∀ l s, (s.2 = fun _ => 0) →
    (addTetC M O l s).1 = s.1 ++ (l.filter (tadd M O)).map fun q => (tnew M O q, 4 * q.1 + q.2) := by
  intro l
  induction l with
  | nil => intro s _; simp [addTetC]
  | cons q l ih =>
    intro s hs
    unfold addTetC
    by_cases c : tadd M O q = true
    · rw [if_pos (by simp [c, hs]), ih _ (by simp [h0, hs])]
      simp [c]
    · rw [if_neg (by simp [c]), ih _ hs]
      simp [c]

theorem noprism_eq (M : Mesh) (O : Opt) (h0 : M.np = 0) : lastTria M O = (M.tfaces.filter (tadd M O)).map fun q => (tnew M O q, 4 * q.1 + q.2) := by
  have hp : M.pfaces = [] := by simp [Mesh.pfaces, h0]
  unfold lastTria
  simp only [hp, addPrismC]
  rw [addTetC_noprism M O h0 _ _ rfl]
  rfl

/-- C106: without prism every triangle has an answer. -/
theorem C106_all_triangles (M : Mesh) (O : Opt) (h0 : M.np = 0) (j : Nat) (hj : j < (lastTria M O).length) :
    ∃ t cc q, (lastTria M O)[j]? = some (t, cc) ∧ tetFromTria (lastTria M O) (j + 1) = some q ∧ IsFace M q t ∧ tadd M O q = true := by
  apply C106_tet_partial
  have : lastTria M O = (addTetC M O M.tfaces ([], fun _ => 0)).1 := by
    unfold lastTria
    simp [Mesh.pfaces, h0, addPrismC]
  rw [this] at hj
  exact hj

/-- C106: without prism, a face that must have a triangle is the answer for exactly one triangle. -/
theorem C106_faces (M : Mesh) (O : Opt) (h0 : M.np = 0) (q : Nat × Nat) (hq : q ∈ M.tfaces) (ha : tadd M O q = true) :
    ∃! j, j < (lastTria M O).length ∧ tetFromTria (lastTria M O) (j + 1) = some q := by
  rw [noprism_eq M O h0]
  have hm : q ∈ M.tfaces.filter (tadd M O) := List.mem_filter.2 ⟨hq, ha⟩
  have nd : (M.tfaces.filter (tadd M O)).Nodup := (tfaces_nodup M).filter _
  have get : ∀ j (hj : j < (M.tfaces.filter (tadd M O)).length),
      tetFromTria ((M.tfaces.filter (tadd M O)).map fun q => (tnew M O q, 4 * q.1 + q.2)) (j + 1) = some (M.tfaces.filter (tadd M O))[j] := by
    intro j hj
    have hr := (List.mem_filter.1 (List.getElem_mem hj)).1
    obtain ⟨⟨g1, _⟩, _, g4⟩ := mem_tfaces.1 hr
    exact tet_get (t := tnew M O (M.tfaces.filter (tadd M O))[j]) g1 g4 (by rw [List.getElem?_map, List.getElem?_eq_getElem hj]; rfl)
  obtain ⟨j, hj, e⟩ := List.getElem_of_mem hm
  refine ⟨j, ⟨by simpa using hj, by rw [get j hj, e]⟩, ?_⟩
  rintro j' ⟨h1, h2⟩
  have hj' : j' < (M.tfaces.filter (tadd M O)).length := by simpa using h1
  rw [get j' hj'] at h2
  have := Option.some.inj h2
  rw [← e] at this
  exact (nd.getElem_inj_iff).1 this

/-- C106: of both tetrahedra.  The first answer is as above; the second one is zero exactly if no other tetrahedron has the face, and else it is
the other tetrahedron with the three vertices of the triangle. -/
theorem C106_both (M : Mesh) (O : Opt) (W : Wf M) (h0 : M.np = 0) (j : Nat) (hj : j < (lastTria M O).length) :
    ∃ t cc q q', (lastTria M O)[j]? = some (t, cc) ∧ tetsFromTria M (lastTria M O) (j + 1) = some (q, q') ∧ IsFace M q t ∧
      ((q' = (0, 0) ∧ ∀ r, IsFace M r t → r = q) ∨ (q' ≠ q ∧ IsFace M q' t ∧ ∀ r, IsFace M r t → r = q ∨ r = q')) := by
  obtain ⟨t, cc, q, h1, h2, h3, _⟩ := C106_all_triangles M O h0 j hj
  have mem : ∀ {r}, IsFace M r t → r ∈ M.tfaces := fun h => mem_tfaces.2 ⟨⟨h.1, h.2.1⟩, h.2.2.1, h.2.2.2.1⟩
  have fk : ∀ {r}, IsFace M r t → t.key = fkey (M.tface r) := by
    intro r h
    have := isFace_of (mem h) (t := tnew M O r) rfl
    rw [h.2.2.2.2, ← this.2.2.2.2]
    rfl
  have key : ∀ r, IsFace M r t → r ≠ q → M.tadj q.1 q.2 = 4 * r.1 + r.2 := fun r hr hne =>
    W.tall q (mem h3) r (mem hr) (fun e => hne e.symm) ((fk h3).symm.trans (fk hr))
  unfold tetsFromTria
  rw [h2]
  dsimp only
  rcases W.tadj q (mem h3) with a | ⟨r, r1, r2, r3, r4⟩
  · rw [a, if_neg (by simp)]
    refine ⟨t, cc, q, _, h1, rfl, h3, .inl ⟨rfl, ?_⟩⟩
    intro r hr
    by_contra c
    have := key r hr c
    have := hr.1
    omega
  · have hr : IsFace M r t := isFace_of r1 ((fk h3).trans r4.symm)
    obtain ⟨c1, c2⟩ := cc_get hr.1 hr.2.2.2.1
    rw [r3, if_pos c1, c2]
    refine ⟨t, cc, q, r, h1, rfl, h3, .inr ⟨r2, hr, ?_⟩⟩
    intro r' hr'
    by_cases e : r' = q
    · exact .inl e
    · right
      have := key r' hr' e
      rw [r3] at this
      rw [← c2, this]
      exact (cc_get hr'.1 hr'.2.2.2.1).2.symm

/-! ### Cases -/

/-- Two tetrahedra of references 2 and 1 with a common face, and one prism apart if `np` is 1. -/
def twoTet (np : Nat) : Mesh where
  ne := 2
  tv := fun k i => if k = 1 then [1, 2, 3, 4].getD i 0 else [5, 2, 4, 3].getD i 0
  tref := fun k => if k = 1 then 2 else 1
  tok := fun k => k == 1 || k == 2
  tadj := fun k i => if (k, i) = (1, 0) then 8 else if (k, i) = (2, 0) then 4 else 0
  np := np
  pv := fun _ i => 11 + i
  pref := fun _ => 3
  pok := fun k => k == 1
  padj := fun _ _ => 0
  tri := []
  bdy := fun _ => false
  hasXt := false
  xt := fun _ => none

def plain : Opt := ⟨false, false, 10, fun _ _ => false, fun _ _ => ((0, 0, 0), (0, 0, 0))⟩

theorem twoTet_wf : Wf (twoTet 0) := by
  have hm : (twoTet 0).tfaces = [(1, 0), (1, 1), (1, 2), (1, 3), (2, 0), (2, 1), (2, 2), (2, 3)] := by decide
  have hp : (twoTet 0).pfaces = [] := by decide
  refine ⟨?_, ?_, ?_, ?_, ?_⟩
  · rw [hm]; decide
  · rw [hm]; decide
  · rw [hp]; simp
  · rw [hp]; simp
  · rw [hp]; simp

example : (lastTria (twoTet 0) plain).length = 7 ∧ tetsFromTria (twoTet 0) (lastTria (twoTet 0) plain) 1 = some ((1, 0), (2, 0)) ∧
    tetsFromTria (twoTet 0) (lastTria (twoTet 0) plain) 5 = some ((2, 1), (0, 0)) := by decide +kernel

/-- C106, counterexample: for a triangle of a prism the answer is a tetrahedron that does not have this triangle. -/
theorem C106_prism_observed : ∃ t cc, (lastTria (twoTet 1) plain)[7]? = some (t, cc) ∧ (t.a, t.b, t.c) = (11, 12, 13) ∧
    tetFromTria (lastTria (twoTet 1) plain) 8 = some (1, 1) ∧ ¬IsFace (twoTet 1) (1, 1) t := by
  refine ⟨⟨11, 12, 13, 0, (0, 0, 0), (0, 0, 0)⟩, 5, by decide +kernel, rfl, by decide +kernel, ?_⟩
  intro h
  exact absurd h.2.2.2.2 (by decide +kernel)

end Mmg.Bdry
