/-
Properties C23, C24, C25 and C29: reading back, after arbitrary histories of calls, what was written through
the library interface. The specification functions `last*` and `calls*` (Verif/ApiHist.lean) only look at the
list of calls, most recent first.
-/
import Verif.ApiHist
import Mathlib.Tactic.NormNum

namespace Mmg.Api

variable {K : Type}

/-! ### Calls inside the announced sizes never leave the arrays -/

/-- Positions and vertex numbers are inside the announced sizes. -/
def Op.InRange (m : Mesh K) : Op K → Prop
  | .setVertex _ _ pos => 0 ≤ pos
  | .setVertices _ _ => True
  | .setTetrahedron v _ pos => 0 ≤ pos ∧ ∀ c, v c ≤ m.npmax
  | .setTetrahedra t _ => ∀ i, i < 4 * m.ne → t i ≤ m.npmax
  | .setPrism v _ pos => 0 ≤ pos ∧ ∀ c, v c ≤ m.npmax
  | .setPrisms p _ => ∀ i, i < 6 * m.nprism → p i ≤ m.npmax
  | .setTriangle _ _ pos => 0 ≤ pos
  | .setTriangles _ _ => True
  | .setQuadrilateral _ _ pos => 0 ≤ pos
  | .setQuadrilaterals _ _ => True
  | .setEdge _ _ pos => 0 ≤ pos
  | .setEdges _ _ => True
  | .setCorner k | .unsetCorner k | .setRequiredVertex k | .unsetRequiredVertex k => k ≤ m.np
  | .setRequiredTetrahedron k | .unsetRequiredTetrahedron k => k ≤ m.ne
  | .setRequiredTetrahedra l | .unsetRequiredTetrahedra l => ∀ k ∈ l, k ≤ m.ne
  | .setRequiredTriangle k | .unsetRequiredTriangle k | .setParallelTriangle k | .unsetParallelTriangle k =>
    k ≤ m.nt
  | .setRequiredTriangles l | .unsetRequiredTriangles l | .setParallelTriangles l
  | .unsetParallelTriangles l => ∀ k ∈ l, k ≤ m.nt
  | .setRidge k | .unsetRidge k | .setRequiredEdge k | .unsetRequiredEdge k => k ≤ m.na

set_option linter.unusedSectionVars false
set_option linter.unnecessarySimpa false

section total
variable [CommRing K] [LinearOrder K]

theorem orient_total (eps : K) (m : Mesh K) (i : Nat) (h : ∀ c, (m.tetra i).v c ≤ m.npmax) :
    ∃ r, orient eps m i = some r := by
  obtain ⟨m', e⟩ := unNuls_some (m := m)
    (l := [(m.tetra i).v 0, (m.tetra i).v 1, (m.tetra i).v 2, (m.tetra i).v 3])
    (by intro v hv; simp at hv; rcases hv with rfl | rfl | rfl | rfl <;> exact h _)
  unfold orient
  simp only [e]
  split
  · exact ⟨_, rfl⟩
  · split <;> exact ⟨_, rfl⟩

theorem setTetrahedraLoop_total (eps : K) (t : Nat → Nat) (r : Option (Nat → Int)) (n i : Nat) (m : Mesh K)
    (hi : 1 ≤ i) (h : ∀ j, j < 4 * (i + n - 1) → t j ≤ m.npmax) :
    ∃ x, setTetrahedraLoop eps t r n i m = some x := by
  induction n generalizing i m with
  | zero => exact ⟨_, rfl⟩
  | succ n ih =>
    simp only [setTetrahedraLoop]
    generalize hm1 : (Mesh.mk m.np m.npmax _ _ _ _ _ _ _ _ _ _ _ _ _ _ _ _ : Mesh K) = m1
    have hnp1 : m1.npmax = m.npmax := by rw [← hm1]
    have ht1 : m1.tetra i = ⟨![t ((i - 1) * 4), t ((i - 1) * 4 + 1), t ((i - 1) * 4 + 2), t ((i - 1) * 4 + 3)],
        pickRef (r.map fun r n => ((r n).natAbs : Int)) i (m.tetra i).ref, (m.tetra i).tag⟩ := by
      rw [← hm1]; exact put_same _ _ _
    obtain ⟨⟨m2, b, tn⟩, e⟩ := orient_total eps m1 i (by
      intro c
      rw [ht1, hnp1]
      fin_cases c <;> exact h _ (by omega))
    have hnp : m2.npmax = m.npmax := by rw [← hnp1]; rw [(orient_spec e).2.2.2.2]
    rw [e]
    cases b with
    | false => exact ⟨_, rfl⟩
    | true =>
      cases tn with
      | true => exact ih (i + 1) _ (by omega) (by intro j hj; show _ ≤ m2.npmax; rw [hnp]; exact h j (by omega))
      | false => exact ih (i + 1) _ (by omega) (by intro j hj; rw [hnp]; exact h j (by omega))

theorem setPrisms_total (m : Mesh K) (p : Nat → Nat) (r : Option (Nat → Int))
    (h : ∀ i, i < 6 * m.nprism → p i ≤ m.npmax) : ∃ x, setPrisms m p r = some x := by
  unfold setPrisms
  have key : ∀ n, n ≤ m.nprism → ∃ m', forTo (fun i om => Option.bind om (setPrismsBody p r i)) n (some m) = some m'
      ∧ m'.npmax = m.npmax := by
    intro n
    induction n with
    | zero => intro _; exact ⟨m, rfl, rfl⟩
    | succ n ih =>
      intro hn
      obtain ⟨m1, e1, hn1⟩ := ih (by omega)
      simp only [forTo, e1, Option.bind_some]
      unfold setPrismsBody
      simp only
      have : ∀ (mm : Mesh K), mm.npmax = m.npmax → ∃ m', unNuls mm [p ((n + 1 - 1) * 6), p ((n + 1 - 1) * 6 + 1),
          p ((n + 1 - 1) * 6 + 2), p ((n + 1 - 1) * 6 + 3), p ((n + 1 - 1) * 6 + 4),
          p ((n + 1 - 1) * 6 + 5)] = some m' ∧ m'.npmax = m.npmax := by
        intro mm hm
        obtain ⟨m', e⟩ := unNuls_some (m := mm) (l := [p ((n + 1 - 1) * 6), p ((n + 1 - 1) * 6 + 1),
          p ((n + 1 - 1) * 6 + 2), p ((n + 1 - 1) * 6 + 3), p ((n + 1 - 1) * 6 + 4),
          p ((n + 1 - 1) * 6 + 5)]) (by
            intro v hv
            rw [hm]
            simp at hv
            rcases hv with rfl | rfl | rfl | rfl | rfl | rfl <;> exact h _ (by omega))
        exact ⟨m', e, by rw [(unNuls_used e).rest]; exact hm⟩
      exact this _ hn1
  obtain ⟨m', e, _⟩ := key m.nprism (le_refl _)
  exact ⟨m', e⟩

theorem overList_total {f : Mesh K → Nat → Option (Mesh K)} {size : Mesh K → Nat}
    (hf : ∀ m k, k ≤ size m → ∃ m', f m k = some m' ∧ size m' = size m) (l : List Nat) (m : Mesh K)
    (h : ∀ k ∈ l, k ≤ size m) : ∃ m', overList f l m = some m' := by
  induction l generalizing m with
  | nil => exact ⟨m, rfl⟩
  | cons a l ih =>
    obtain ⟨m1, e1, s1⟩ := hf m a (h a (by simp))
    simp only [overList, e1, Option.bind_some]
    exact ih m1 (by intro k hk; rw [s1]; exact h k (by simp [hk]))

theorem ttag_total (f : Tag → Tag) (m : Mesh K) (k : Nat) (h : k ≤ m.nemax) :
    ∃ m', ttag m k f = some m' ∧ m'.nemax = m.nemax := by
  simp only [ttag, h, if_true]; exact ⟨_, rfl, rfl⟩

theorem ftag_total (f : Tag → Tag) (m : Mesh K) (k : Nat) (h : k ≤ m.ntmax) :
    ∃ m', ftag m k f = some m' ∧ m'.ntmax = m.ntmax := by
  simp only [ftag, h, if_true]; exact ⟨_, rfl, rfl⟩

theorem step_total (eps : K) (m : Mesh K) (hf : m.Fits) (op : Op K) (h : op.InRange m) :
    ∃ m', step eps m op = some m' := by
  have hp := hf.p
  have he := hf.e
  have ht := hf.t
  have ha := hf.a
  cases op <;> simp only [Op.InRange] at h <;> simp only [step]
  case setVertex => unfold setVertex; split_ifs <;> first | omega | exact ⟨_, rfl⟩
  case setVertices => exact ⟨_, rfl⟩
  case setTetrahedron v ref pos =>
    unfold setTetrahedron
    split_ifs
    · exact ⟨_, rfl⟩
    · exact ⟨_, rfl⟩
    · exact ⟨_, rfl⟩
    · omega
    · obtain ⟨⟨m2, b, tn⟩, e⟩ := orient_total eps
        { m with tetra := put m.tetra pos.toNat { m.tetra pos.toNat with v := v, ref := ref.natAbs } } pos.toNat
        (by intro c; simp only [put_same]; exact h.2 c)
      dsimp only at e ⊢
      rw [e]
      cases b <;> cases tn <;> exact ⟨_, rfl⟩
  case setTetrahedra t r =>
    obtain ⟨x, e⟩ := setTetrahedraLoop_total eps t r m.ne 1 { m with xp := 0 } (le_refl _)
      (by intro j hj; exact h j (by omega))
    exact ⟨x.1, by rw [setTetrahedra, e]; rfl⟩
  case setPrism v ref pos =>
    unfold setPrism
    split_ifs
    · exact ⟨_, rfl⟩
    · exact ⟨_, rfl⟩
    · omega
    · obtain ⟨m', e⟩ := unNuls_some
        (m := { m with prism := put m.prism pos.toNat { m.prism pos.toNat with v := v, ref := ref } })
        (l := [v 0, v 1, v 2, v 3, v 4, v 5])
        (by intro w hw; simp at hw; rcases hw with rfl | rfl | rfl | rfl | rfl | rfl <;> exact h.2 _)
      simp only [e]
      exact ⟨_, rfl⟩
  case setPrisms p r => exact setPrisms_total m p r h
  case setTriangle => unfold setTriangle; split_ifs <;> first | omega | exact ⟨_, rfl⟩
  case setTriangles => exact ⟨_, rfl⟩
  case setQuadrilateral => unfold setQuadrilateral; split_ifs <;> first | omega | exact ⟨_, rfl⟩
  case setQuadrilaterals => exact ⟨_, rfl⟩
  case setEdge => unfold setEdge; split_ifs <;> first | omega | exact ⟨_, rfl⟩
  case setEdges => exact ⟨_, rfl⟩
  case setCorner k => simp only [setCorner, ptag, show k ≤ m.npmax by omega, if_true]; exact ⟨_, rfl⟩
  case unsetCorner k => simp only [unsetCorner, ptag, show k ≤ m.npmax by omega, if_true]; exact ⟨_, rfl⟩
  case setRequiredVertex k => simp only [setRequiredVertex, ptag, show k ≤ m.npmax by omega, if_true]; exact ⟨_, rfl⟩
  case unsetRequiredVertex k =>
    simp only [unsetRequiredVertex, ptag, show k ≤ m.npmax by omega, if_true]; exact ⟨_, rfl⟩
  case setRequiredTetrahedron k => obtain ⟨m', e, _⟩ := ttag_total _ m k (by omega); exact ⟨m', e⟩
  case unsetRequiredTetrahedron k => obtain ⟨m', e, _⟩ := ttag_total _ m k (by omega); exact ⟨m', e⟩
  case setRequiredTetrahedra l =>
    exact overList_total (size := Mesh.nemax) (fun m k hk => ttag_total _ m k hk) l m
      (fun k hk => le_trans (h k hk) he)
  case unsetRequiredTetrahedra l =>
    exact overList_total (size := Mesh.nemax) (fun m k hk => ttag_total _ m k hk) l m
      (fun k hk => le_trans (h k hk) he)
  case setRequiredTriangle k => obtain ⟨m', e, _⟩ := ftag_total _ m k (by omega); exact ⟨m', e⟩
  case unsetRequiredTriangle k => obtain ⟨m', e, _⟩ := ftag_total _ m k (by omega); exact ⟨m', e⟩
  case setParallelTriangle k => obtain ⟨m', e, _⟩ := ftag_total _ m k (by omega); exact ⟨m', e⟩
  case unsetParallelTriangle k => obtain ⟨m', e, _⟩ := ftag_total _ m k (by omega); exact ⟨m', e⟩
  case setRequiredTriangles l =>
    exact overList_total (size := Mesh.ntmax) (fun m k hk => ftag_total _ m k hk) l m
      (fun k hk => le_trans (h k hk) ht)
  case unsetRequiredTriangles l =>
    exact overList_total (size := Mesh.ntmax) (fun m k hk => ftag_total _ m k hk) l m
      (fun k hk => le_trans (h k hk) ht)
  case setParallelTriangles l =>
    exact overList_total (size := Mesh.ntmax) (fun m k hk => ftag_total _ m k hk) l m
      (fun k hk => le_trans (h k hk) ht)
  case unsetParallelTriangles l =>
    exact overList_total (size := Mesh.ntmax) (fun m k hk => ftag_total _ m k hk) l m
      (fun k hk => le_trans (h k hk) ht)
  case setRidge k => simp only [setRidge, etag, show k ≤ m.namax by omega, if_true]; exact ⟨_, rfl⟩
  case unsetRidge k => simp only [unsetRidge, etag, show k ≤ m.namax by omega, if_true]; exact ⟨_, rfl⟩
  case setRequiredEdge k => simp only [setRequiredEdge, etag, show k ≤ m.namax by omega, if_true]; exact ⟨_, rfl⟩
  case unsetRequiredEdge k =>
    simp only [unsetRequiredEdge, etag, show k ≤ m.namax by omega, if_true]; exact ⟨_, rfl⟩

theorem inRange_sizes {m m' : Mesh K} (h1 : m'.np = m.np) (h2 : m'.npmax = m.npmax) (h3 : m'.ne = m.ne)
    (h4 : m'.nprism = m.nprism) (h5 : m'.nt = m.nt) (h6 : m'.na = m.na) (op : Op K) (h : op.InRange m) :
    op.InRange m' := by
  cases op <;> simpa only [Op.InRange, h1, h2, h3, h4, h5, h6] using h

/-- Any history of calls whose non-negative positions, vertex numbers and flagged entities fit in the announced
sizes runs without leaving the arrays. -/
theorem C23_histories_run (eps : K) (m0 : Mesh K) (hf : m0.Fits) (h : List (Op K))
    (hin : ∀ op ∈ h, op.InRange m0) : ∃ m, run eps m0 h = some m := by
  induction h with
  | nil => exact ⟨m0, rfl⟩
  | cons op older ih =>
    obtain ⟨m1, e1⟩ := ih (fun o ho => hin o (by simp [ho]))
    have hs := run_sizes hf e1
    obtain ⟨m2, e2⟩ := step_total eps m1 (run_fits hf e1) op
      (inRange_sizes (by rw [hs]) (by rw [hs]) (by rw [hs]) (by rw [hs]) (by rw [hs]) (by rw [hs]) op
        (hin op (by simp)))
    exact ⟨m2, by simp only [run, e1, Option.bind_some, e2]⟩

end total

section props
variable [CommRing K] [LinearOrder K]

/-- A mesh just after `MMG3D_Set_meshSize`. -/
structure Fresh (m : Mesh K) : Prop where
  fits : m.Fits
  eq : m = fresh m.np m.npmax m.ne m.nemax m.nprism m.nt m.ntmax m.nquad m.na m.namax

/-- **C23** Vertices read back by index or in block, after any history of calls from a mesh whose size was just
set, are the coordinates and reference last given; the corner and required flags are those of the last call that
sets, unsets or rewrites them. -/
theorem C23_vertex_round_trip (eps : K) {m0 m : Mesh K} (h0 : Fresh m0) {h : List (Op K)}
    (hr : run eps m0 h = some m) (k : Nat) (h1 : 1 ≤ k) (h2 : k ≤ m0.np) (b : VBuf K) :
    let corner := lastOf (callsSetCorner k) (fun op => callsUnsetCorner k op || callsWriteVertex k op) false h
    let required := lastOf (callsSetRequiredVertex k)
      (fun op => callsUnsetRequiredVertex k op || callsWriteVertex k op) false h
    getByIdxVertex m k = some ⟨(lastVertex k h).1, (lastVertex k h).2, corner, required⟩ ∧
    (∀ c : Fin 3, (getVertices m b).vertices (3 * (k - 1) + c) = (lastVertex k h).1 c) ∧
    (getVertices m b).refs (k - 1) = (lastVertex k h).2 ∧
    (getVertices m b).corners (k - 1) = corner ∧ (getVertices m b).required (k - 1) = required := by
  have hf := h0.fits
  have hz : (m0.point k).c = (fun _ => 0) ∧ (m0.point k).ref = 0 := by rw [h0.eq]; exact ⟨rfl, rfl⟩
  have ht : ∀ j, (m0.point k).tag.getLsbD j = false := by
    intro j; rw [h0.eq]; exact BitVec.getLsbD_zero
  obtain ⟨e1, e2⟩ := vertex_hist hf h1 h2 hz hr
  have hnp := run_np hf hr
  have c5 := vertex_bits hf h1 h2 hr 5 (by decide)
  have c2 := vertex_bits hf h1 h2 hr 2 (by decide)
  rw [ht] at c5 c2
  simp only [decide_true, Bool.true_and, show ¬ (5 = 2) by decide, show ¬ (2 = 5) by decide, decide_false,
    Bool.false_and, Bool.or_false, Bool.false_or] at c5 c2
  obtain ⟨g1, g2, g3, g4⟩ := getVertices_spec m b k h1 (by omega)
  intro corner required
  rw [has_crn, c5] at g3
  rw [has_req, c2] at g4
  refine ⟨?_, ?_, ?_, g3, g4⟩
  · unfold getByIdxVertex
    rw [if_neg (by omega)]
    simp only [Int.toNat_natCast, has_crn, has_req, c5, c2, e1, e2]
    rfl
  · intro c
    rw [Nat.mul_comm, g1 c, e1]
  · rw [g2, e2]

/-- **C23** Reading outside `1..np` is refused and the block getter writes only the announced part of the
caller's arrays. -/
theorem C23_out_of_range (m : Mesh K) (idx : Int) (hi : idx < 1 ∨ (m.np : Int) < idx) (b : VBuf K) (x : Nat) :
    getByIdxVertex m idx = none ∧ (3 * m.np ≤ x → (getVertices m b).vertices x = b.vertices x) ∧
    (m.np ≤ x → (getVertices m b).refs x = b.refs x) := by
  refine ⟨?_, (getVertices_out m b x).1, fun h => ((getVertices_out m b x).2 h).1⟩
  unfold getByIdxVertex
  rw [if_pos (by omega)]

/-- Position 0 is accepted although vertices are numbered from 1 (there is no test `pos < 1`), and a negative
position writes before the array. -/
theorem C23_position_zero_accepted (m : Mesh K) (h : m.np ≠ 0) (c : Fin 3 → K) (ref : Int) :
    (setVertex m c ref 0).map (·.2) = some true ∧ setVertex m c ref (-1) = none := by
  constructor <;> unfold setVertex <;> split_ifs <;> first | omega | rfl

/-- **C23**, **C25** A position beyond the announced number of entities is refused and changes nothing. -/
theorem C23_beyond_size_refused (eps : K) (m : Mesh K) (ref pos : Int) (c : Fin 3 → K) (v2 : Fin 2 → Nat)
    (v3 : Fin 3 → Nat) (v4 : Fin 4 → Nat) (v6 : Fin 6 → Nat) :
    ((m.np : Int) < pos → setVertex m c ref pos = some (m, false)) ∧
    ((m.ne : Int) < pos → setTetrahedron eps m v4 ref pos = some (m, false)) ∧
    ((m.nprism : Int) < pos → setPrism m v6 ref pos = some (m, false)) ∧
    ((m.nt : Int) < pos → setTriangle m v3 ref pos = some (m, false)) ∧
    ((m.nquad : Int) < pos → setQuadrilateral m v4 ref pos = some (m, false)) ∧
    ((m.na : Int) < pos → setEdge m v2 ref pos = some (m, false)) := by
  refine ⟨?_, ?_, ?_, ?_, ?_, ?_⟩ <;> intro h
  · unfold setVertex; split_ifs <;> rfl
  · unfold setTetrahedron; split_ifs <;> rfl
  · unfold setPrism; split_ifs <;> rfl
  · unfold setTriangle; split_ifs <;> rfl
  · unfold setQuadrilateral; split_ifs <;> rfl
  · unfold setEdge; split_ifs <;> rfl

example : (ex0c : Mesh ℚ) → ex0c = fresh 6 8 1 2 1 1 2 1 1 2 → setVertex ex0c ![1, 2, 3] 4 7 = some (ex0c, false) := by
  rintro m rfl
  exact (C23_beyond_size_refused 0 _ 4 7 ![1, 2, 3] ![1, 1] ![1, 1, 1] ![1, 1, 1, 1] ![1, 1, 1, 1, 1, 1]).1
    (by decide)

/-- **C25** Triangles: block reading returns the vertices and references last written, whatever else was called,
and the required flag holds iff the last set/unset call about the triangle is a set. -/
theorem C25_triangle_round_trip (eps : K) {m0 m : Mesh K} (h0 : Fresh m0) {h : List (Op K)}
    (hr : run eps m0 h = some m) (k : Nat) (h1 : 1 ≤ k) (h2 : k ≤ m0.nt) (b : EBuf) :
    (m.tria k).v = (lastTria k h).1 ∧ (m.tria k).ref = (lastTria k h).2 ∧
    (∀ c : Fin 3, (getTriangles m b).v (3 * (k - 1) + c) = (lastTria k h).1 c) ∧
    (getTriangles m b).refs (k - 1) = (lastTria k h).2 ∧
    (getTriangles m b).required (k - 1) = lastOf (callsSetRequiredTria k) (callsUnsetRequiredTria k) false h := by
  have hf := h0.fits
  have hz : (m0.tria k).v = (fun _ => 0) ∧ (m0.tria k).ref = 0 := by rw [h0.eq]; exact ⟨rfl, rfl⟩
  have ht : ∀ c j, ((m0.tria k).tag c).getLsbD j = false := by
    intro c j; rw [h0.eq]; exact BitVec.getLsbD_zero
  obtain ⟨e1, e2⟩ := tria_hist hf h1 h2 hz hr
  have hnp := run_nt hf hr
  have c2 := fun c => tria_bits hf (k := k) hr c 2
  simp only [ht, decide_true, Bool.true_and, show ¬ (2 = 13) by decide, decide_false, Bool.false_and,
    Bool.or_false] at c2
  obtain ⟨g1, g2, g3⟩ := getTriangles_spec m b k h1 (by omega)
  refine ⟨e1, e2, ?_, ?_, ?_⟩
  · intro c; rw [Nat.mul_comm, g1 c, e1]
  · rw [g2, e2]
  · rw [g3]
    simp only [has_req, c2]
    simp

/-- **C25** Quadrilaterals. The interface has no call to make them required. -/
theorem C25_quadrilateral_round_trip (eps : K) {m0 m : Mesh K} (h0 : Fresh m0) {h : List (Op K)}
    (hr : run eps m0 h = some m) (k : Nat) (h1 : 1 ≤ k) (h2 : k ≤ m0.nquad) (b : EBuf) :
    (m.quadra k).v = (lastQuad k h).1 ∧ (m.quadra k).ref = (lastQuad k h).2 ∧
    (∀ c : Fin 4, (getQuadrilaterals m b).v (4 * (k - 1) + c) = (lastQuad k h).1 c) ∧
    (getQuadrilaterals m b).refs (k - 1) = (lastQuad k h).2 ∧
    (getQuadrilaterals m b).required (k - 1) = false := by
  have hf := h0.fits
  have hz : (m0.quadra k).v = (fun _ => 0) ∧ (m0.quadra k).ref = 0 := by rw [h0.eq]; exact ⟨rfl, rfl⟩
  have ht : (m0.quadra k).tag = fun _ => 0 := by rw [h0.eq]; rfl
  obtain ⟨e1, e2, e3⟩ := quad_hist hf h1 h2 hz hr
  have hnp := run_nquad hf hr
  obtain ⟨g1, g2, g3⟩ := getQuadrilaterals_spec m b k h1 (by omega)
  refine ⟨e1, e2, ?_, ?_, ?_⟩
  · intro c; rw [Nat.mul_comm, g1 c, e1]
  · rw [g2, e2]
  · rw [g3, e3, ht]; simp [has]

/-- **C25** Edges, with their ridge and required flags. -/
theorem C25_edge_round_trip (eps : K) {m0 m : Mesh K} (h0 : Fresh m0) {h : List (Op K)}
    (hr : run eps m0 h = some m) (k : Nat) (h1 : 1 ≤ k) (h2 : k ≤ m0.na) (b : AEBuf) :
    (m.edge k).v = (lastEdge k h).1 ∧ (m.edge k).ref = (lastEdge k h).2 ∧
    (∀ c : Fin 2, (getEdges m b).v (2 * (k - 1) + c) = (lastEdge k h).1 c) ∧
    (getEdges m b).refs (k - 1) = (lastEdge k h).2 ∧
    (getEdges m b).ridges (k - 1) = lastOf (callsSetRidge k) (callsUnsetRidge k) false h ∧
    (getEdges m b).required (k - 1) = lastOf (callsSetRequiredEdge k) (callsUnsetRequiredEdge k) false h := by
  have hf := h0.fits
  have hz : (m0.edge k).v = (fun _ => 0) ∧ (m0.edge k).ref = 0 := by rw [h0.eq]; exact ⟨rfl, rfl⟩
  have ht : ∀ j, (m0.edge k).tag.getLsbD j = false := by
    intro j; rw [h0.eq]; exact BitVec.getLsbD_zero
  obtain ⟨e1, e2⟩ := edge_hist hf h1 h2 hz hr
  have hnp := run_na hf hr
  have c1 := edge_bits hf h1 h2 hr 1
  have c2 := edge_bits hf h1 h2 hr 2
  rw [ht] at c1 c2
  simp only [decide_true, Bool.true_and, show ¬ (1 = 2) by decide, show ¬ (2 = 1) by decide,
    show ¬ (1 = 0) by decide, show ¬ (2 = 0) by decide, decide_false,
    Bool.false_and, Bool.or_false, Bool.false_or] at c1 c2
  obtain ⟨g1, g2, g3, g4⟩ := getEdges_spec m b k h1 (by omega)
  refine ⟨e1, e2, ?_, ?_, ?_, ?_⟩
  · intro c; rw [Nat.mul_comm, g1 c, e1]
  · rw [g2, e2]
  · rw [g3, has_geo, c1]
  · rw [g4, has_req, c2]

/-- **C25** Prisms, partial: one by one the vertices are stored as given, but the block getter returns vertices 1
and 2 exchanged, so the round trip through `MMG3D_Get_prisms` only holds for the other four vertices. -/
theorem C25_prism_round_trip_partial (eps : K) {m0 m : Mesh K} (h0 : Fresh m0) {h : List (Op K)}
    (hr : run eps m0 h = some m) (k : Nat) (h1 : 1 ≤ k) (h2 : k ≤ m0.nprism) (b : EBuf) :
    (m.prism k).v = (lastPrism k h).1 ∧ (m.prism k).ref = (lastPrism k h).2 ∧
    (∀ c : Fin 6, c ≠ 1 → c ≠ 2 → (getPrisms m b).v (6 * (k - 1) + c) = (lastPrism k h).1 c) ∧
    (getPrisms m b).v (6 * (k - 1) + 1) = (lastPrism k h).1 2 ∧
    (getPrisms m b).v (6 * (k - 1) + 2) = (lastPrism k h).1 1 ∧
    (getPrisms m b).refs (k - 1) = (lastPrism k h).2 := by
  have hf := h0.fits
  have hz : (m0.prism k).v = (fun _ => 0) ∧ (m0.prism k).ref = 0 := by rw [h0.eq]; exact ⟨rfl, rfl⟩
  obtain ⟨e1, e2, e3⟩ := prism_hist hf h1 h2 hz hr
  have hnp := run_nprism hf hr
  obtain ⟨g1, g2, g3⟩ := getPrisms_spec m b k h1 (by omega)
  rw [e1] at g1
  refine ⟨e1, e2, ?_, ?_, ?_, by rw [g2, e2]⟩
  · intro c hc1 hc2
    rw [Nat.mul_comm, g1 c]
    fin_cases c <;> simp [swap12] at hc1 hc2 ⊢
  · have := g1 1; rw [Nat.mul_comm]; exact this
  · have := g1 2; rw [Nat.mul_comm]; exact this

/-- **C29** Vertex flags: over any history and any initial tag, each bit other than "unused" equals what the last
call about it said; bits with no call (neither corner nor required) only change when the vertex is rewritten. -/
theorem C29_vertex_flags (eps : K) {m0 m : Mesh K} (hf : m0.Fits) {h : List (Op K)}
    (hr : run eps m0 h = some m) (k : Nat) (h1 : 1 ≤ k) (h2 : k ≤ m0.np) :
    (m.point k).tag.getLsbD 5 = lastOf (callsSetCorner k)
      (fun op => callsUnsetCorner k op || callsWriteVertex k op) ((m0.point k).tag.getLsbD 5) h ∧
    (m.point k).tag.getLsbD 2 = lastOf (callsSetRequiredVertex k)
      (fun op => callsUnsetRequiredVertex k op || callsWriteVertex k op) ((m0.point k).tag.getLsbD 2) h ∧
    ∀ j, j ≠ 2 → j ≠ 5 → j ≠ 15 → (m.point k).tag.getLsbD j =
      lastOf (fun _ => false) (callsWriteVertex k) ((m0.point k).tag.getLsbD j) h := by
  have c5 := vertex_bits hf h1 h2 hr 5 (by decide)
  have c2 := vertex_bits hf h1 h2 hr 2 (by decide)
  simp only [decide_true, Bool.true_and, show ¬ (5 = 2) by decide, show ¬ (2 = 5) by decide, decide_false,
    Bool.false_and, Bool.or_false, Bool.false_or] at c5 c2
  refine ⟨c5, c2, ?_⟩
  intro j a b c
  have := vertex_bits hf h1 h2 hr j c
  simpa [a, b] using this

/-- **C29** Triangle flags: the required and parallel bits of the three edges equal the last call about them and
no call of the interface changes any other bit. -/
theorem C29_triangle_flags (eps : K) {m0 m : Mesh K} (hf : m0.Fits) {h : List (Op K)}
    (hr : run eps m0 h = some m) (k : Nat) (c : Fin 3) :
    ((m.tria k).tag c).getLsbD 2 = lastOf (callsSetRequiredTria k) (callsUnsetRequiredTria k)
      (((m0.tria k).tag c).getLsbD 2) h ∧
    ((m.tria k).tag c).getLsbD 13 = lastOf (callsSetParallelTria k) (callsUnsetParallelTria k)
      (((m0.tria k).tag c).getLsbD 13) h ∧
    ∀ j, j ≠ 2 → j ≠ 13 → ((m.tria k).tag c).getLsbD j = ((m0.tria k).tag c).getLsbD j := by
  have c2 := tria_bits hf (k := k) hr c 2
  have c13 := tria_bits hf (k := k) hr c 13
  simp only [decide_true, Bool.true_and, show ¬ (13 = 2) by decide, show ¬ (2 = 13) by decide, decide_false,
    Bool.false_and, Bool.or_false, Bool.false_or] at c13 c2
  refine ⟨c2, c13, ?_⟩
  intro j a b
  have := tria_bits hf (k := k) hr c j
  simp only [a, b, decide_false, Bool.false_and, Bool.or_false] at this
  rw [this]
  clear this hr c2 c13
  induction h with
  | nil => rfl
  | cons op h ih => simp [lastOf, ih]

/-- **C29** Edge flags: ridge and required bits equal the last call about them; the reference bit is raised by
writing the edge; no call changes another bit. -/
theorem C29_edge_flags (eps : K) {m0 m : Mesh K} (hf : m0.Fits) {h : List (Op K)}
    (hr : run eps m0 h = some m) (k : Nat) (h1 : 1 ≤ k) (h2 : k ≤ m0.na) :
    (m.edge k).tag.getLsbD 1 = lastOf (callsSetRidge k) (callsUnsetRidge k) ((m0.edge k).tag.getLsbD 1) h ∧
    (m.edge k).tag.getLsbD 2 = lastOf (callsSetRequiredEdge k) (callsUnsetRequiredEdge k)
      ((m0.edge k).tag.getLsbD 2) h ∧
    (m.edge k).tag.getLsbD 0 = lastOf (callsWriteEdge k) (fun _ => false) ((m0.edge k).tag.getLsbD 0) h ∧
    ∀ j, 3 ≤ j → (m.edge k).tag.getLsbD j = (m0.edge k).tag.getLsbD j := by
  have c0 := edge_bits hf h1 h2 hr 0
  have c1 := edge_bits hf h1 h2 hr 1
  have c2 := edge_bits hf h1 h2 hr 2
  simp only [decide_true, Bool.true_and, show ¬ (1 = 2) by decide, show ¬ (2 = 1) by decide,
    show ¬ (1 = 0) by decide, show ¬ (2 = 0) by decide, show ¬ (0 = 1) by decide, show ¬ (0 = 2) by decide,
    decide_false, Bool.false_and, Bool.or_false, Bool.false_or] at c0 c1 c2
  refine ⟨c1, c2, c0, ?_⟩
  intro j hj
  have := edge_bits hf h1 h2 hr j
  simp only [show ¬ (j = 0) by omega, show ¬ (j = 1) by omega, show ¬ (j = 2) by omega, decide_false,
    Bool.false_and, Bool.or_false] at this
  rw [this]
  clear this hr c0 c1 c2
  induction h with
  | nil => rfl
  | cons op h ih => simp [lastOf, ih]

/-- **C29** Tetrahedron flags. -/
theorem C29_tetrahedron_flags (eps : K) {m0 m : Mesh K} (hf : m0.Fits) {h : List (Op K)}
    (hr : run eps m0 h = some m) (k : Nat) (h1 : 1 ≤ k) :
    (m.tetra k).tag.getLsbD 2 = lastOf (callsSetRequiredTetra k) (callsUnsetRequiredTetra k)
      ((m0.tetra k).tag.getLsbD 2) h ∧
    ∀ j, j ≠ 2 → (m.tetra k).tag.getLsbD j = (m0.tetra k).tag.getLsbD j := by
  have c2 := tetra_bits hf h1 hr 2
  simp only [decide_true, Bool.true_and] at c2
  refine ⟨c2, ?_⟩
  intro j hj
  have := tetra_bits hf h1 hr j
  simp only [hj, decide_false, Bool.false_and] at this
  rw [this]
  clear this hr c2
  induction h with
  | nil => rfl
  | cons op h ih => simp [lastOf, ih]

end props

/-! ### Tetrahedra -/

section tetra
variable [CommRing K] [LinearOrder K] [IsStrictOrderedRing K]

/-- Six times the signed volume of the tetrahedron of vertices `a b c d` (specification): the triple product. -/
def sixVol (a b c d : Fin 3 → K) : K :=
  (b 0 - a 0) * ((c 1 - a 1) * (d 2 - a 2) - (c 2 - a 2) * (d 1 - a 1)) -
  (b 1 - a 1) * ((c 0 - a 0) * (d 2 - a 2) - (c 2 - a 2) * (d 0 - a 0)) +
  (b 2 - a 2) * ((c 0 - a 0) * (d 1 - a 1) - (c 1 - a 1) * (d 0 - a 0))

/-- Six times the volume of the tetrahedron with vertex numbers `v` in mesh `m`. -/
def volOf (m : Mesh K) (v : Fin 4 → Nat) : K :=
  sixVol (m.point (v 0)).c (m.point (v 1)).c (m.point (v 2)).c (m.point (v 3)).c

omit [LinearOrder K] [IsStrictOrderedRing K] in
theorem orvol_eq (m : Mesh K) (v : Fin 4 → Nat) : orvol m.point v = volOf m v := by
  simp only [orvol, det4pt, det3pt1vec, volOf, sixVol]; ring

omit [LinearOrder K] [IsStrictOrderedRing K] in
theorem volOf_exchange (m : Mesh K) (v : Fin 4 → Nat) : volOf m (exchange v) = - volOf m v := by
  rw [← orvol_eq, ← orvol_eq]; exact orvol_swap m.point v

omit [LinearOrder K] [IsStrictOrderedRing K] in
theorem volOf_same {m m' : Mesh K} (h : SameV m m') (v : Fin 4 → Nat) : volOf m' v = volOf m v := by
  rw [← orvol_eq, ← orvol_eq]; exact orvol_same h v

/-- **C24** One tetrahedron. When the call is accepted the element is stored with volume larger than `eps`, as
given or with its last two vertices exchanged, exchanged iff the given volume is negative, and the repair counter
is incremented iff it was exchanged. When the call is refused for a position in range, the given volume is null
(at most `eps` in absolute value); the element is nevertheless stored as given. -/
theorem C24_set_tetrahedron (eps : K) {m m' : Mesh K} (hf : m.ne ≤ m.nemax)
    {v : Fin 4 → Nat} {ref : Int} {pos : Nat} {ok : Bool} (h1 : 1 ≤ pos) (h2 : pos ≤ m.ne)
    (h : setTetrahedron eps m v ref pos = some (m', ok)) :
    (ok = true ↔ eps < |volOf m v|) ∧
    (ok = true → eps < volOf m' (m'.tetra pos).v) ∧
    (m'.tetra pos).v = (if ok = true ∧ volOf m v < 0 then exchange v else v) ∧
    m'.xt = m.xt + (if ok = true ∧ volOf m v < 0 then 1 else 0) ∧
    (m'.tetra pos).ref = |ref| ∧ (∀ k, k ≠ pos → m'.tetra k = m.tetra k) ∧
    (∀ k, (m'.point k).c = (m.point k).c ∧ (m'.point k).ref = (m.point k).ref) := by
  rcases setTetrahedron_spec h hf with ⟨_, _, hc⟩ | ⟨_, _, _, s, e, hok, _⟩
  · omega
  · rw [orvol_eq] at hok e
    have hv : ∀ w, volOf m' w = volOf m w := volOf_same s
    simp only [Int.toNat_natCast] at e
    have hcond : (ok = true ∧ volOf m v < 0) ↔ (eps < |volOf m v| ∧ volOf m v < 0) := by rw [hok]
    have et : m'.tetra = put m.tetra pos
        ⟨if eps < |volOf m v| ∧ volOf m v < 0 then exchange v else v, ref.natAbs, (m.tetra pos).tag⟩ := by rw [e]
    refine ⟨hok, ?_, ?_, ?_, ?_, ?_, fun k => ⟨s.c k, s.ref k⟩⟩
    · intro ho
      rw [et, hv]
      simp only [put_same]
      have ha := hok.1 ho
      by_cases hn : volOf m v < 0
      · rw [if_pos ⟨ha, hn⟩, volOf_exchange]
        rwa [abs_of_neg hn] at ha
      · rw [if_neg (fun hc => hn hc.2)]
        rwa [abs_of_nonneg (not_lt.1 hn)] at ha
    · rw [et]; simp only [put_same, hcond]
    · rw [e]; simp only [hcond]
    · rw [et]; simp only [put_same]; exact Int.natCast_natAbs ref
    · intro k hk; rw [et]; exact put_ne _ _ hk

/-- **C24** All tetrahedra at once. If the call is accepted, every element is stored with volume larger than
`eps`, as given or exchanged, exchanged iff its given volume is negative, and the counter (`xp`, not the `xt` of
the one by one call) is the number of exchanged elements. The call is refused iff some given element has a null
volume. -/
theorem C24_set_tetrahedra (eps : K) {m m' : Mesh K} {t : Nat → Nat}
    {r : Option (Nat → Int)} {ok : Bool} (h : setTetrahedra eps m t r = some (m', ok)) :
    (ok = true ↔ ∀ j, 1 ≤ j → j ≤ m.ne → eps < |volOf m (given4 t j)|) ∧
    (ok = true → (∀ j, 1 ≤ j → j ≤ m.ne → eps < volOf m' (m'.tetra j).v ∧
      (m'.tetra j).v = if volOf m (given4 t j) < 0 then exchange (given4 t j) else given4 t j) ∧
      m'.xp = ((List.range m.ne).filter (fun d => decide (volOf m (given4 t (d + 1)) < 0))).length) ∧
    m'.xt = m.xt ∧
    (∀ k, (m'.point k).c = (m.point k).c ∧ (m'.point k).ref = (m.point k).ref) := by
  have T := setTetrahedraLoop_spec h
  have hall := T.all
  have hv : ∀ w, volOf m' w = volOf m w := fun w => volOf_same (m := m) ⟨T.same.c, T.same.ref, T.same.tag⟩ w
  have ho : ∀ w, orvol ({ m with xp := 0 } : Mesh K).point w = volOf m w := fun w => orvol_eq m w
  simp only [orvol_eq] at hall
  refine ⟨?_, ?_, ?_, fun k => ⟨T.same.c k, T.same.ref k⟩⟩
  · rw [hall]
    constructor
    · intro hh j a b; exact hh j a (by omega)
    · intro hh j a b; exact hh j a (by omega)
  · intro hk
    have hh := hall.1 hk
    refine ⟨?_, ?_⟩
    · intro j a b
      have hd := T.done j a (by omega) (by
        intro l c d; rw [ho]; exact hh l c (by omega))
      have ha : eps < |volOf m (given4 t j)| := hh j a (by omega)
      have hvj : (m'.tetra j).v = if volOf m (given4 t j) < 0 then exchange (given4 t j) else given4 t j := by
        rw [hd]
        simp only [ho, ha, true_and]
      refine ⟨?_, hvj⟩
      rw [hvj, hv]
      by_cases hn : volOf m (given4 t j) < 0
      · rw [if_pos hn, volOf_exchange]
        rwa [abs_of_neg hn] at ha
      · rw [if_neg hn]
        rwa [abs_of_nonneg (not_lt.1 hn)] at ha
    · rw [T.xp hk]
      simp only [ho, Nat.zero_add, Nat.add_comm 1]
  · rw [T.rest]

/-- **C24** What is left behind by a refused block call: elements before the first null one are stored and
oriented, the null one is stored as given, later ones keep their old content. -/
theorem C24_set_tetrahedra_refused (eps : K) {m m' : Mesh K} {t : Nat → Nat}
    {r : Option (Nat → Int)} {ok : Bool} (h : setTetrahedra eps m t r = some (m', ok)) (i : Nat)
    (h1 : 1 ≤ i) (h2 : i ≤ m.ne) (hi : |volOf m (given4 t i)| ≤ eps)
    (hlt : ∀ l, 1 ≤ l → l < i → eps < |volOf m (given4 t l)|) :
    ok = false ∧
    (∀ j, 1 ≤ j → j < i →
      (m'.tetra j).v = if volOf m (given4 t j) < 0 then exchange (given4 t j) else given4 t j) ∧
    (m'.tetra i).v = given4 t i ∧ (∀ j, i < j → m'.tetra j = m.tetra j) := by
  have T := setTetrahedraLoop_spec h
  have ho : ∀ w, orvol ({ m with xp := 0 } : Mesh K).point w = volOf m w := fun w => orvol_eq m w
  refine ⟨?_, ?_, ?_, ?_⟩
  · cases ok with
    | false => rfl
    | true =>
      have := T.all.1 rfl i h1 (by show i < 1 + m.ne; omega)
      rw [ho] at this
      exact absurd hi (not_le.2 this)
  · intro j a b
    rw [T.done j a (by show j < 1 + m.ne; omega) (by intro l c d; rw [ho]; exact hlt l c (by omega))]
    simp only [ho, hlt j a b, true_and]
  · rw [T.done i h1 (by show i < 1 + m.ne; omega) (by intro l c d; rw [ho]; exact hlt l c d)]
    simp only [ho, not_lt.2 hi, false_and, if_false]
  · intro j hj
    by_cases hn : j < 1 + m.ne
    · exact T.skip j i h1 hj hn (by rw [ho]; exact hi)
    · exact T.out j (Or.inr (by show 1 + m.ne ≤ j; omega))

/-- Bit 15 of the tag word (`MG_NUL`): the vertex belongs to no element yet. -/
def unusedMark (m : Mesh K) (k : Nat) : Bool := (m.point k).tag.getLsbD 15

/-- **C24** Vertices of stored elements are no longer marked as unused: one tetrahedron (even refused for its null
volume), all tetrahedra, one prism. -/
theorem C24_vertices_used (eps : K) {m : Mesh K} (hf : m.ne ≤ m.nemax) :
    (∀ (v : Fin 4 → Nat) (ref : Int) (pos : Nat) (m' : Mesh K) (ok : Bool), 1 ≤ pos → pos ≤ m.ne →
      setTetrahedron eps m v ref pos = some (m', ok) → ∀ c, unusedMark m' (v c) = false) ∧
    (∀ (t : Nat → Nat) (r : Option (Nat → Int)) (m' : Mesh K), setTetrahedra eps m t r = some (m', true) →
      ∀ j, j < 4 * m.ne → unusedMark m' (t j) = false) ∧
    (∀ (v : Fin 6 → Nat) (ref : Int) (pos : Nat) (m' : Mesh K) (ok : Bool), 1 ≤ pos → pos ≤ m.nprism →
      setPrism m v ref pos = some (m', ok) → ok = true ∧ ∀ c, unusedMark m' (v c) = false) := by
  refine ⟨?_, ?_, ?_⟩
  · intro v ref pos m' ok h1 h2 h
    rcases setTetrahedron_spec h hf with ⟨_, _, hc⟩ | ⟨_, _, _, _, _, _, u⟩
    · omega
    · exact u
  · intro t r m' h j hj
    have T := setTetrahedraLoop_spec h
    have hh := T.all.1 rfl
    have u := T.used (j / 4 + 1) (by omega) (by show j / 4 + 1 < 1 + m.ne; omega)
      (fun l a b => hh l a (by show l < 1 + m.ne; omega))
    have e : t j = given4 t (j / 4 + 1) ⟨j % 4, Nat.mod_lt _ (by decide)⟩ := by
      have hd := Nat.div_add_mod j 4
      have hm := Nat.mod_lt j (show 0 < 4 by decide)
      have : j % 4 = 0 ∨ j % 4 = 1 ∨ j % 4 = 2 ∨ j % 4 = 3 := by omega
      rcases this with e | e | e | e <;> simp [given4, e] <;> congr 1 <;> omega
    unfold unusedMark
    rw [e]
    exact u _
  · intro v ref pos m' ok h1 h2 h
    rcases setPrism_cases h with ⟨_, _, hc⟩ | ⟨_, _, _, b, _, u, _⟩
    · omega
    · exact ⟨b, u⟩

/-- **C24** Block reading returns the stored elements. -/
theorem C24_get_tetrahedra (m : Mesh K) (b : EBuf) (k : Nat) (h1 : 1 ≤ k) (h2 : k ≤ m.ne) :
    (∀ c : Fin 4, (getTetrahedra m b).v (4 * (k - 1) + c) = (m.tetra k).v c) ∧
    (getTetrahedra m b).refs (k - 1) = (m.tetra k).ref ∧
    (getTetrahedra m b).required (k - 1) = (m.tetra k).tag.getLsbD 2 := by
  obtain ⟨g1, g2, g3⟩ := getTetrahedra_spec m b k h1 h2
  refine ⟨fun c => by rw [Nat.mul_comm]; exact g1 c, g2, by rw [g3, has_req]⟩

/-- The calls that move vertices. -/
def Op.movesVertices : Op K → Bool
  | .setVertex .. | .setVertices .. => true
  | _ => false

/-- The call is accepted (only tetrahedron calls matter here). -/
def Op.Accepted (eps : K) (m : Mesh K) : Op K → Prop
  | .setTetrahedron v ref pos => 1 ≤ pos ∧ ∃ m', Api.setTetrahedron eps m v ref pos = some (m', true)
  | .setTetrahedra t r => ∃ m', Api.setTetrahedra eps m t r = some (m', true)
  | _ => True

/-- Histories (most recent first) of accepted calls that do not move vertices. -/
inductive RunAcc (eps : K) (m0 : Mesh K) : List (Op K) → Mesh K → Prop
  | nil : RunAcc eps m0 [] m0
  | cons {h m m' op} : RunAcc eps m0 h m → op.movesVertices = false → op.Accepted eps m →
      step eps m op = some m' → RunAcc eps m0 (op :: h) m'

/-- **C24** Over any history of accepted calls that do not move vertices, an element of positive volume stays so,
and the coordinates are those of the start: reorientation is never undone by later calls. -/
theorem C24_positive_kept (eps : K) {m0 m : Mesh K} (hf : m0.Fits) {h : List (Op K)}
    (hr : RunAcc eps m0 h m) (k : Nat) (h1 : 1 ≤ k) (h2 : k ≤ m0.ne) (hp : eps < volOf m0 (m0.tetra k).v) :
    m.Fits ∧ m.ne = m0.ne ∧ (∀ w, volOf m w = volOf m0 w) ∧ eps < volOf m (m.tetra k).v := by
  induction hr with
  | nil => exact ⟨hf, rfl, fun _ => rfl, hp⟩
  | @cons h m1 m2 op _ hmv hacc hs ih =>
    obtain ⟨hf1, hne, hvol, hpos⟩ := ih
    have hsz := step_sizes hf1 hs
    have hf2 : m2.Fits := by rw [hsz]; exact ⟨hf1.p, hf1.e, hf1.t, hf1.a⟩
    have hne2 : m2.ne = m0.ne := by rw [hsz]; exact hne
    have hc : ∀ j, (m2.point j).c = (m1.point j).c := by
      by_cases ho : op.onVertex = false
      · exact ((step_frame hf1 hs).1 ho).c
      · cases op <;> simp only [Op.onVertex, Bool.true_eq_false, not_false_eq_true, not_true_eq_false] at ho <;>
          simp only [Op.movesVertices, Bool.true_eq_false] at hmv <;> simp only [step] at hs
        all_goals
          intro j
          rw [ptag_cases hs]
          simp only [put]
          split
          · next e => subst e; rfl
          · rfl
    have hv2 : ∀ w, volOf m2 w = volOf m1 w := by intro w; simp only [volOf, hc]
    refine ⟨hf2, hne2, fun w => (hv2 w).trans (hvol w), ?_⟩
    by_cases ho : op.onTetra = false
    · rw [(step_frame hf1 hs).2.1 ho, hv2]; exact hpos
    · cases op <;> simp only [Op.onTetra, Bool.true_eq_false, not_false_eq_true, not_true_eq_false] at ho
      case setTetrahedron v ref pos =>
        obtain ⟨hp1, m', hm'⟩ := hacc
        simp only [step, hm', Option.map_some, Option.some.injEq] at hs
        subst hs
        by_cases e : pos = k
        · subst e
          exact (C24_set_tetrahedron eps hf1.e h1 (by omega) hm').2.1 rfl
        · rcases setTetrahedron_spec hm' hf1.e with ⟨rfl, _⟩ | ⟨_, hp1, hp2, _, e', _⟩
          · exact hpos
          · rw [hv2]
            have : m'.tetra k = m1.tetra k := by
              rw [e']; exact put_ne _ _ (by omega)
            rw [this]; exact hpos
      case setTetrahedra t r =>
        obtain ⟨m', hm'⟩ := hacc
        simp only [step, hm', Option.map_some, Option.some.injEq] at hs
        subst hs
        exact (((C24_set_tetrahedra eps hm').2.1 rfl).1 k h1 (by omega)).1
      case setRequiredTetrahedra l =>
        have := overList_ttag (fun t => or_idem t REQ) hs
        rw [hv2, this]; exact hpos
      case unsetRequiredTetrahedra l =>
        have := overList_ttag (fun t => andn_idem t REQ) hs
        rw [hv2, this]; exact hpos
      all_goals
        simp only [step] at hs
        have := ttag_cases hs
        rw [hv2, this]
        simp only [put]
        split
        · next e => subst e; exact hpos
        · exact hpos

end tetra

/-! ### Examples -/

/-- A mesh of size 4 vertices, 1 tetrahedron, 1 prism, 1 triangle, 1 quadrilateral, 1 edge. -/
def ex0 : Mesh ℚ := fresh 6 8 1 2 1 1 2 1 1 2

theorem ex0_fresh : Fresh ex0 := ⟨⟨by decide, by decide, by decide, by decide⟩, rfl⟩

/-- A history with rewritten vertices, flags and an inverted tetrahedron (most recent call first). -/
def exHist : List (Op ℚ) :=
  [.unsetRequiredVertex 2, .setRequiredVertex 3, .setCorner 2, .setRequiredVertex 2,
   .setPrism ![1, 2, 3, 4, 5, 6] 9 1, .setEdge ![1, 2] 5 1, .setRidge 1,
   .setTetrahedron ![1, 2, 4, 3] 7 1,
   .setVertex ![0, 0, 1] 14 4, .setVertex ![0, 1, 0] 13 3, .setVertex ![1, 0, 0] 12 2,
   .setVertex ![5, 5, 5] 1 2, .setVertex ![0, 0, 0] 11 1]

theorem exHist_inRange : ∀ op ∈ exHist, op.InRange ex0 := by
  intro op h
  simp only [exHist, List.mem_cons, List.not_mem_nil, or_false] at h
  rcases h with rfl | rfl | rfl | rfl | rfl | rfl | rfl | rfl | rfl | rfl | rfl | rfl | rfl <;>
    simp [Op.InRange, ex0, fresh] <;> decide

/-- The hypotheses of the round trip theorems hold for this history. -/
example : ∃ m, run 0 ex0 exHist = some m ∧
    getByIdxVertex m 2 = some ⟨![1, 0, 0], 12, true, false⟩ ∧
    (getPrisms m ⟨fun _ => 0, fun _ => 0, fun _ => false⟩).v 1 = 3 := by
  obtain ⟨m, hm⟩ := C23_histories_run 0 ex0 ex0_fresh.fits exHist exHist_inRange
  refine ⟨m, hm, ?_, ?_⟩
  · have := (C23_vertex_round_trip 0 ex0_fresh hm 2 (by decide) (by decide)
      ⟨fun _ => 0, fun _ => 0, fun _ => false, fun _ => false⟩).1
    simpa [exHist, lastVertex, lastOf, callsSetCorner, callsUnsetCorner, callsWriteVertex,
      callsSetRequiredVertex, callsUnsetRequiredVertex] using this
  · have := (C25_prism_round_trip_partial 0 ex0_fresh hm 1 (by decide) (by decide)
      ⟨fun _ => 0, fun _ => 0, fun _ => false⟩).2.2.2.1
    simpa [exHist, lastPrism] using this

/-- **C25**, refuted for prisms: written as `1 2 3 4 5 6`, read back in block as `1 3 2 4 5 6`. -/
theorem C25_prism_round_trip_false : ¬ ∀ (m0 m : Mesh ℚ) (_ : Fresh m0) (h : List (Op ℚ)) (_ : run 0 m0 h = some m)
    (k : Nat) (_ : 1 ≤ k) (_ : k ≤ m0.nprism) (b : EBuf) (c : Fin 6),
    (getPrisms m b).v (6 * (k - 1) + c) = (lastPrism k h).1 c := by
  intro hall
  obtain ⟨m, hm⟩ := C23_histories_run 0 ex0 ex0_fresh.fits exHist exHist_inRange
  have h1 := hall ex0 m ex0_fresh exHist hm 1 (by decide) (by decide) ⟨fun _ => 0, fun _ => 0, fun _ => false⟩ 1
  have h2 := (C25_prism_round_trip_partial 0 ex0_fresh hm 1 (by decide) (by decide)
      ⟨fun _ => 0, fun _ => 0, fun _ => false⟩).2.2.2.1
  have h3 := h1.symm.trans h2
  simp [exHist, lastPrism] at h3

/-- A tetrahedron given with negative volume is stored exchanged, with positive volume. -/
example : ∃ m m', run 0 ex0 [.setVertex ![0, 0, 1] 14 4, .setVertex ![0, 1, 0] 13 3, .setVertex ![1, 0, 0] 12 2,
      .setVertex ![0, 0, 0] 11 1] = some m ∧
    setTetrahedron 0 m ![1, 2, 4, 3] (-7) 1 = some (m', true) ∧ (m'.tetra 1).v = ![1, 2, 3, 4] ∧
    (m'.tetra 1).ref = 7 ∧ m'.xt = 1 := by
  obtain ⟨m, hm⟩ := C23_histories_run (K := ℚ) 0 ex0 ex0_fresh.fits [.setVertex ![0, 0, 1] 14 4,
    .setVertex ![0, 1, 0] 13 3, .setVertex ![1, 0, 0] 12 2, .setVertex ![0, 0, 0] 11 1]
    (by intro op h; simp only [List.mem_cons, List.not_mem_nil, or_false] at h
        rcases h with rfl | rfl | rfl | rfl <;> simp [Op.InRange])
  have hsz := run_sizes ex0_fresh.fits hm
  have hf := run_fits ex0_fresh.fits hm
  have hpt : ∀ k, 1 ≤ k → k ≤ 6 → (m.point k).c = (lastVertex k [Op.setVertex ![(0 : ℚ), 0, 1] 14 4,
    .setVertex ![0, 1, 0] 13 3, .setVertex ![1, 0, 0] 12 2, .setVertex ![0, 0, 0] 11 1]).1 :=
    fun k a b => (vertex_hist ex0_fresh.fits a b ⟨rfl, rfl⟩ hm).1
  have hne : m.ne = 1 := by rw [hsz]; rfl
  have hxt : m.xt = 0 := by
    simp only [run, step, Option.bind_some] at hm
    simp [setVertex, ex0, fresh] at hm
    rw [← hm]
  have hvol : volOf m ![1, 2, 4, 3] = -1 := by
    have e1 := hpt 1 (by decide) (by decide)
    have e2 := hpt 2 (by decide) (by decide)
    have e3 := hpt 3 (by decide) (by decide)
    have e4 := hpt 4 (by decide) (by decide)
    simp [lastVertex] at e1 e2 e3 e4
    simp [volOf, sixVol, e1, e2, e3, e4]
  obtain ⟨m', hm'⟩ := step_total 0 m hf (.setTetrahedron ![1, 2, 4, 3] (-7) 1) (by
    refine ⟨by decide, ?_⟩
    have : m.npmax = 8 := by rw [hsz]; rfl
    rw [this]; decide)
  simp only [step, Option.map_eq_some_iff, Prod.exists, exists_and_right, exists_eq_right] at hm'
  obtain ⟨ok, hm'⟩ := hm'
  have C := C24_set_tetrahedron 0 hf.e (pos := 1) (by decide) (by omega) hm'
  have hok : ok = true := C.1.2 (by rw [hvol]; norm_num)
  subst hok
  refine ⟨m, m', hm, hm', ?_, ?_, ?_⟩
  · rw [C.2.2.1, hvol]; simp [exchange]
  · rw [C.2.2.2.2.1]; rfl
  · rw [C.2.2.2.1, hvol, hxt]; simp

end Mmg.Api
