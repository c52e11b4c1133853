/- Properties C54 (normals of boundary vertices after the final packing) and C55 (free list of points after the final
packing) of `Pack3Model`. -/
import Verif.Pack3Props
import Mathlib.Tactic.IntervalCases

namespace Mmg.Pack3

variable {α ν β K : Type}

/-! ### C54: normals -/

/-- A boundary vertex that is not a corner, not non-manifold and not on a ridge or reference edge, with a record. -/
def Regular (p : Pt α ν) : Prop :=
  p.tag &&& BDY ≠ 0 ∧ p.tag &&& CRN = 0 ∧ p.tag &&& NOM = 0 ∧ p.tag &&& GEO = 0 ∧ p.tag &&& REF = 0 ∧ p.xp ≠ 0

theorem clean_has (p : Pt α ν) {m : BitVec 16} (hm : ~~~NOSURF &&& (~~~REQ &&& m) = m) :
    has (clean p).tag m = has p.tag m := by
  unfold clean
  dsimp only
  split_ifs with h
  · unfold has
    rw [BitVec.and_assoc, BitVec.and_assoc, hm]
  · rfl

theorem setNormal_regular (xn : Nat → ν) (d : Nat) {p : Pt α ν} (h : Regular p) :
    (setNormal xn (stamp d p)).n = xn p.xp := by
  obtain ⟨h1, h2, h3, h4, h5, h6⟩ := h
  have e : ∀ m, ~~~NOSURF &&& (~~~REQ &&& m) = m → has (stamp d p).tag m = has p.tag m := fun m hm => clean_has _ hm
  unfold setNormal
  rw [e BDY (by decide), e CRN (by decide), e NOM (by decide), e GEO (by decide), e REF (by decide), if_pos]
  · rfl
  · have hx : (stamp d p).xp ≠ 0 := h6
    unfold has
    simp only [ne_eq, decide_not, Bool.and_eq_true, Bool.not_eq_true', decide_eq_false_iff_not, Bool.or_eq_false_iff,
      decide_eq_true_eq, Bool.not_eq_false']
    exact ⟨⟨h1, ⟨h2, h3⟩, h4, h5⟩, hx⟩

/-- Every regular boundary vertex gets the normal of its record, except the vertex with the last number if it did not
move. (The full claim, without the exception, is false: `C54_last_normal_missing`.) -/
theorem C54_normals_partial (zp : Pt α ν) (zt : β) {M : Mesh α ν β K} (h : Ready M) :
    ∃ M' nc new τ π κ, packMesh zp zt M = some (M', nc) ∧ Consistent M M' new τ π κ ∧
      ∀ i, Used M.pts i → Regular (M.pts.pt i) → (new i ≠ M'.pts.np ∨ new i ≠ i ∨ ∀ j, Used M.pts j → j = i ∧ i = 1) →
        (M'.pts.pt (new i)).n = M.xn (M.pts.pt i).xp := by
  obtain ⟨M', nc, τ, π, κ, h1, h2, h3, _⟩ := pack_full zp zt h
  refine ⟨M', nc, newIdx M, τ, π, κ, h1, h3, ?_⟩
  have hpl := plan_spec (fun j => vok (M.pts.pt j)) (M.pts.np + 1) 1 (M.pts.np + 1) (by omega)
  intro i hi hr hc
  have hmem := (hpl.2.1 i).2 ⟨hi.1, by have := hi.2.1; omega, hi.2.2⟩
  obtain ⟨p, hp, rfl⟩ := List.mem_map.1 hmem
  have hnew : newIdx M p.2 = p.1 := by
    unfold newIdx
    rw [h2.mark p hp]; rfl
  rw [hnew] at hc ⊢
  rw [h2.pt p hp, if_neg]
  · exact setNormal_regular M.xn p.1 (p := { M.pts.pt p.2 with tmp := 0 }) hr
  · rintro ⟨c1, c2, c3⟩
    rcases hc with hc | hc | hc
    · exact hc c1
    · exact hc c2
    · obtain ⟨la, lb, lc⟩ := lastUsed_spec (fun j => vok (M.pts.pt j)) M.pts.np
      have := hc (lastUsed (fun j => vok (M.pts.pt j)) M.pts.np) ⟨by omega, la, by
        rcases lb with lb | lb
        · omega
        · exact lb⟩
      omega

/-- Example mesh: one tetrahedron on points 1, 2, 4, 5, with holes at 3 and 6; every point is a regular boundary point. -/
def meshEx : Mesh Nat Nat Nat Nat where
  pts := ⟨6, 3, fun k => ⟨if k = 3 ∨ k = 6 then NUL else BDY, -(k : Int), 0, k, 0, 10 * k⟩⟩
  npmax := 10
  xn := fun k => 100 + k
  tets := ⟨2, 1, fun k => ⟨fun i => if k = 2 then [1, 2, 4, 5].getD i 0 else 0, k⟩, fun _ => 0⟩
  nemax := 10
  hasAdja := true
  prisms := ⟨0, fun _ => ⟨fun _ => 0, 0⟩⟩
  quads := ⟨0, fun _ => ⟨fun _ => 0, 0⟩⟩
  sols := [⟨2, 6, fun j => j⟩]

def zpEx : Pt Nat Nat := ⟨0, 0, 0, 0, 0, 0⟩

theorem meshEx_used : ∀ i, Used meshEx.pts i ↔ i ∈ [1, 2, 4, 5] := by
  intro i
  constructor
  · rintro ⟨h1, h2, h3⟩
    have h2 : i ≤ 6 := h2
    interval_cases i <;> first | decide | (exact absurd h3 (by decide))
  · intro h
    have : ∀ i ∈ [1, 2, 4, 5], 1 ≤ i ∧ i ≤ 6 ∧ vok (meshEx.pts.pt i) = true := by decide
    exact this i h

theorem meshEx_ready : Ready meshEx := by
  have hv : ∀ k, Val meshEx.tets k → k = 2 := by
    rintro k ⟨h1, h2, h3⟩
    have h2 : k ≤ 2 := h2
    interval_cases k
    · exact absurd h3 (by decide)
    · rfl
  refine ⟨⟨1, (meshEx_used 1).2 (by decide)⟩, fun _ => by decide, fun _ p _ q _ h => absurd rfl h, ?_, ?_, ?_⟩
  · intro k hk i hi
    rw [hv k hk, meshEx_used]
    revert hi i
    decide
  · rintro k ⟨h1, h2, _⟩
    have h2 : k ≤ 0 := h2
    omega
  · rintro k ⟨h1, h2, _⟩
    have h2 : k ≤ 0 := h2
    omega

/-- The result on the example: point 5 moves to 3, point 4 keeps its number, which is the last one. -/
example : (packMesh zpEx 0 meshEx).map (fun r => (r.1.pts.np, [1, 2, 3, 4].map fun k => (r.1.pts.pt k).dat)) =
      some (4, [10, 20, 50, 40]) ∧
    (packMesh zpEx 0 meshEx).map (fun r => (r.1.tets.ne, [0, 1, 2, 3].map (r.1.tets.el 1).v)) = some (1, [1, 2, 4, 3]) ∧
    (packMesh zpEx 0 meshEx).map (fun r => r.1.sols.map fun q => (q.np, [2, 3, 4, 5, 6, 7, 8, 9].map q.m)) =
      some [(4, [2, 3, 4, 5, 10, 11, 8, 9])] := by decide +kernel

/-- The vertex with the last number is a regular boundary vertex and does not get the normal of its record (104). -/
theorem C54_last_normal_missing : Ready meshEx ∧ Used meshEx.pts 4 ∧ Regular (meshEx.pts.pt 4) ∧
    (packMesh zpEx 0 meshEx).map (fun r => (r.1.pts.np, [1, 2, 3, 4].map fun k => (r.1.pts.pt k).n)) =
      some (4, [101, 102, 105, 0]) :=
  ⟨meshEx_ready, (meshEx_used 4).2 (by decide), by unfold Regular; decide, by decide +kernel⟩

/-! ### C55: free list of the points -/

/-- The points as a pool of slots. -/
def poolOf (npmax : Nat) (s : Pts α ν) : Pool.Pool Unit :=
  ⟨npmax, s.np, s.npnil, fun k => ⟨vok (s.pt k), (s.pt k).tmp, ()⟩⟩

/-- Points whose slots are those of the pool. -/
def ofPool (p : Pool.Pool Unit) : Pts Unit Unit :=
  ⟨p.top, p.nil, fun k => ⟨if (p.cell k).live then 0 else NUL, 0, (p.cell k).link, 0, (), ()⟩⟩

/-- After the packing the free slots are those above the last point, in order, provided that the last slot of the array
was never in use. (The full claim, without this condition, is false: `C55_free_list_false`.) -/
theorem C55_free_list_partial (z : Pt α ν) (xn : Nat → ν) (npmax : Nat) {s : Pts α ν} (hu : ∃ i, Used s i)
    (h1 : s.np + 1 < npmax) (h2 : (s.pt (npmax - 1)).tmp = 0) :
    ∃ s', packPts z xn npmax { s with pt := (mark s.np s.pt).2.2 } = some s' ∧ s'.np ≤ s.np ∧
      Pool.freeList (poolOf npmax s') = List.range' (s'.np + 1) (npmax - 1 - s'.np) := by
  obtain ⟨s', e1, e2⟩ := points_plan z xn npmax hu
  have hle : s'.np ≤ s.np := by rw [e2.np]; exact e2.le
  refine ⟨s', e1, hle, ?_⟩
  have hc := Pool.chain_range (poolOf npmax s').cell (npmax - 1 - s'.np) (s'.np + 1) (by omega)
    (fun k a b => e2.link k (by omega) (by omega))
    (fun _ => by
      show (s'.pt (s'.np + 1 + (npmax - 1 - s'.np) - 1)).tmp = 0
      rw [show s'.np + 1 + (npmax - 1 - s'.np) - 1 = npmax - 1 by omega, e2.keep (npmax - 1) (by omega) (by omega)]
      exact h2)
  have hnil : (poolOf npmax s').nil = if npmax - 1 - s'.np = 0 then 0 else s'.np + 1 := by
    show s'.npnil = _
    rw [e2.nil]
    split_ifs <;> omega
  rw [← hnil] at hc
  exact Pool.follow_chain _ _ _ _ hc (by rw [List.length_range']; show _ ≤ npmax + 1; omega)

/-- A zeroed point. -/
def zU : Pool.Cell Unit := ⟨true, 0, ()⟩

/-- Three points are created, the first and the third are deleted, the mesh is packed: the free list then contains the
remaining point, which the second next creation would hand out a second time. -/
theorem C55_free_list_false : ∃ p S s', Pool.Reach zU () p S ∧ S 2 = some () ∧ (∀ k, k ≠ 2 → S k = none) ∧
    packPts (α := Unit) (ν := Unit) ⟨0, 0, 0, 0, (), ()⟩ (fun _ => ()) p.cap
      { ofPool p with pt := (mark (ofPool p).np (ofPool p).pt).2.2 } = some s' ∧
    s'.np = 1 ∧ vok (s'.pt 1) = true ∧ (Pool.freeList (poolOf p.cap s')).take 3 = [2, 3, 1] := by
  refine ⟨_, _, _, Pool.Reach.del (k := 3)
      (Pool.Reach.del (k := 1)
        (Pool.Reach.new (p' := _) (r := 3) () 0 none (by simp)
          (Pool.Reach.new (p' := _) (r := 2) () 0 none (by simp)
            (Pool.Reach.new (p' := _) (r := 1) () 0 none (by simp)
              (Pool.Reach.init (cap := 4) (n := 0) (fun _ => zU) (by decide)) rfl (by decide)) rfl (by decide))
          rfl (by decide)) (by decide) rfl) (by decide) rfl, by decide, ?_, rfl, by decide, by decide, by decide⟩
  intro k hk
  simp only [Pool.put]
  split_ifs <;> first | rfl | omega

example : Used (⟨3, 0, fun k => ⟨if k = 2 then 0 else NUL, 0, 0, 0, (), ()⟩⟩ : Pts Unit Unit) 2 := by
  refine ⟨by decide, by decide, by decide⟩

/-! ### Prisms -/

/-- An unused prism in front of the last ones is filled, but the count decreases by one only: an unused prism may remain
inside the count. -/
theorem C11_unused_prism_counted : (packEls (β := Nat) ⟨3, fun k => ⟨fun _ => if k = 3 then 7 else 0, k⟩⟩).n = 2 ∧
    eok ((packEls (β := Nat) ⟨3, fun k => ⟨fun _ => if k = 3 then 7 else 0, k⟩⟩).el 2) = false := by decide +kernel

end Mmg.Pack3
