/-
What the arrays contain after an arbitrary history of calls of the library interface, compared with what the
list of calls says (helper file for C23, C24, C25 and C29).

The specification side only looks at the list of calls (most recent first): `last*` functions search the
most recent call that says something about entity `k`.
-/
import Verif.ApiSteps
import Mathlib.Data.Rat.Defs
import Mathlib.Algebra.Order.Ring.Rat

namespace Mmg.Api

set_option linter.unusedSimpArgs false

variable {K : Type}

/-! ### Specification: what the history says -/

/-- The last coordinates and reference given for vertex `k` (zero if none). -/
def lastVertex [Zero K] (k : Nat) : List (Op K) → (Fin 3 → K) × Int
  | [] => (fun _ => 0, 0)
  | .setVertex c ref pos :: h => if pos = k then (c, ref) else lastVertex k h
  | .setVertices v refs :: h =>
    (fun i => v (3 * (k - 1) + i), match refs with | some r => r (k - 1) | none => (lastVertex k h).2)
  | _ :: h => lastVertex k h

/-- The last vertices and reference given for prism `k`. -/
def lastPrism (k : Nat) : List (Op K) → (Fin 6 → Nat) × Int
  | [] => (fun _ => 0, 0)
  | .setPrism v ref pos :: h => if pos = k then (v, ref) else lastPrism k h
  | .setPrisms v refs :: h =>
    (fun i => v (6 * (k - 1) + i), match refs with | some r => r (k - 1) | none => (lastPrism k h).2)
  | _ :: h => lastPrism k h

/-- The last vertices and reference given for triangle `k`. -/
def lastTria (k : Nat) : List (Op K) → (Fin 3 → Nat) × Int
  | [] => (fun _ => 0, 0)
  | .setTriangle v ref pos :: h => if pos = k then (v, ref) else lastTria k h
  | .setTriangles v refs :: h =>
    (fun i => v (3 * (k - 1) + i), match refs with | some r => r (k - 1) | none => (lastTria k h).2)
  | _ :: h => lastTria k h

/-- The last vertices and reference given for quadrilateral `k`. -/
def lastQuad (k : Nat) : List (Op K) → (Fin 4 → Nat) × Int
  | [] => (fun _ => 0, 0)
  | .setQuadrilateral v ref pos :: h => if pos = k then (v, ref) else lastQuad k h
  | .setQuadrilaterals v refs :: h =>
    (fun i => v (4 * (k - 1) + i), match refs with | some r => r (k - 1) | none => (lastQuad k h).2)
  | _ :: h => lastQuad k h

/-- The last vertices and reference given for edge `k`. -/
def lastEdge (k : Nat) : List (Op K) → (Fin 2 → Nat) × Int
  | [] => (fun _ => 0, 0)
  | .setEdge v ref pos :: h => if pos = k then (v, ref) else lastEdge k h
  | .setEdges v refs :: h =>
    (fun i => v (2 * (k - 1) + i), match refs with | some r => r (k - 1) | none => (lastEdge k h).2)
  | _ :: h => lastEdge k h

/-- A switch: the most recent call among those that turn it on or off decides. -/
def lastOf (on off : Op K → Bool) (init : Bool) : List (Op K) → Bool
  | [] => init
  | op :: h => if on op then true else if off op then false else lastOf on off init h

def callsSetCorner (k : Nat) : Op K → Bool | .setCorner j => j == k | _ => false
def callsUnsetCorner (k : Nat) : Op K → Bool | .unsetCorner j => j == k | _ => false
def callsSetRequiredVertex (k : Nat) : Op K → Bool | .setRequiredVertex j => j == k | _ => false
def callsUnsetRequiredVertex (k : Nat) : Op K → Bool | .unsetRequiredVertex j => j == k | _ => false
/-- Calls that give new coordinates to vertex `k`. They also forget all its flags. -/
def callsWriteVertex (k : Nat) : Op K → Bool
  | .setVertex _ _ pos => pos == k
  | .setVertices _ _ => true
  | _ => false
def callsSetRequiredTetra (k : Nat) : Op K → Bool
  | .setRequiredTetrahedron j => j == k | .setRequiredTetrahedra l => l.contains k | _ => false
def callsUnsetRequiredTetra (k : Nat) : Op K → Bool
  | .unsetRequiredTetrahedron j => j == k | .unsetRequiredTetrahedra l => l.contains k | _ => false
def callsSetRequiredTria (k : Nat) : Op K → Bool
  | .setRequiredTriangle j => j == k | .setRequiredTriangles l => l.contains k | _ => false
def callsUnsetRequiredTria (k : Nat) : Op K → Bool
  | .unsetRequiredTriangle j => j == k | .unsetRequiredTriangles l => l.contains k | _ => false
def callsSetParallelTria (k : Nat) : Op K → Bool
  | .setParallelTriangle j => j == k | .setParallelTriangles l => l.contains k | _ => false
def callsUnsetParallelTria (k : Nat) : Op K → Bool
  | .unsetParallelTriangle j => j == k | .unsetParallelTriangles l => l.contains k | _ => false
def callsSetRidge (k : Nat) : Op K → Bool | .setRidge j => j == k | _ => false
def callsUnsetRidge (k : Nat) : Op K → Bool | .unsetRidge j => j == k | _ => false
def callsSetRequiredEdge (k : Nat) : Op K → Bool | .setRequiredEdge j => j == k | _ => false
def callsUnsetRequiredEdge (k : Nat) : Op K → Bool | .unsetRequiredEdge j => j == k | _ => false
/-- Calls that give new end points to edge `k`: they also mark it as a reference edge. -/
def callsWriteEdge (k : Nat) : Op K → Bool
  | .setEdge _ _ pos => pos == k
  | .setEdges _ _ => true
  | _ => false

/-! ### Proofs -/

theorem vec3_eq {α : Type} (v : Nat → α) (k : Nat) :
    ![v ((k-1)*3), v ((k-1)*3+1), v ((k-1)*3+2)] = fun i : Fin 3 => v (3 * (k - 1) + i) := by
  funext i; fin_cases i <;> simp [Nat.mul_comm]
theorem vec2_eq {α : Type} (v : Nat → α) (k : Nat) :
    ![v ((k-1)*2), v ((k-1)*2+1)] = fun i : Fin 2 => v (2 * (k - 1) + i) := by
  funext i; fin_cases i <;> simp [Nat.mul_comm]
theorem vec4_eq {α : Type} (v : Nat → α) (k : Nat) :
    ![v ((k-1)*4), v ((k-1)*4+1), v ((k-1)*4+2), v ((k-1)*4+3)] = fun i : Fin 4 => v (4 * (k - 1) + i) := by
  funext i; fin_cases i <;> simp [Nat.mul_comm]
theorem vec6_eq {α : Type} (v : Nat → α) (k : Nat) :
    ![v ((k-1)*6), v ((k-1)*6+1), v ((k-1)*6+2), v ((k-1)*6+3), v ((k-1)*6+4), v ((k-1)*6+5)] =
      fun i : Fin 6 => v (6 * (k - 1) + i) := by
  funext i; fin_cases i <;> simp [Nat.mul_comm]

theorem toNat_eq_iff {p : Int} (h : 0 ≤ p) (k : Nat) : k = p.toNat ↔ p = k := by omega

section
variable [CommRing K] [LinearOrder K]

theorem vertex_hist {eps : K} {m0 m : Mesh K} (hf : m0.Fits) {k : Nat} (h1 : 1 ≤ k) (h2 : k ≤ m0.np)
    (h0 : (m0.point k).c = (fun _ => 0) ∧ (m0.point k).ref = 0)
    {h : List (Op K)} (hr : run eps m0 h = some m) :
    (m.point k).c = (lastVertex k h).1 ∧ (m.point k).ref = (lastVertex k h).2 := by
  induction h generalizing m with
  | nil => simp only [run, Option.some.injEq] at hr; subst hr; exact h0
  | cons op older ih =>
    simp only [run, Option.bind_eq_some_iff] at hr
    obtain ⟨m1, hr1, hs⟩ := hr
    have I := ih hr1
    have hf1 := run_fits hf hr1
    have hnp := run_np hf hr1
    by_cases ho : op.onVertex = false
    · have s := (step_frame hf1 hs).1 ho
      rw [s.c, s.ref]
      cases op <;> first | (simp [Op.onVertex] at ho; done) | exact I
    · cases op <;> simp only [Op.onVertex, Bool.true_eq_false, not_false_eq_true, not_true_eq_false] at ho <;>
        simp only [step, Option.map_eq_some_iff, Prod.exists, exists_and_right, exists_eq_right,
          Option.some.injEq] at hs
      case setVertex c ref pos =>
        obtain ⟨b, hs⟩ := hs
        rcases setVertex_cases hs hf1.p with ⟨rfl, _, hc⟩ | ⟨_, hp1, hp2, _, rfl⟩
        · have : pos ≠ k := by omega
          simpa [lastVertex, this] using I
        · simp only [lastVertex, put, toNat_eq_iff hp1]
          by_cases e : pos = k
          · simp [e]
          · simp only [e, if_false]; exact I
      case setVertices v r =>
        rw [← hs, setVertices_eq]
        simp only [hnp, h1, h2, and_self, if_true, lastVertex, vec3_eq, true_and]
        cases r with
        | none => exact I.2
        | some r => rfl
      all_goals
        rw [ptag_cases hs]
        simp only [put, lastVertex]
        split
        · next e => subst e; exact I
        · exact I

theorem vertex_bits {eps : K} {m0 m : Mesh K} (hf : m0.Fits) {k : Nat} (h1 : 1 ≤ k) (h2 : k ≤ m0.np)
    {h : List (Op K)} (hr : run eps m0 h = some m) (j : Nat) (hj : j ≠ 15) :
    (m.point k).tag.getLsbD j = lastOf
      (fun op => (decide (j = 5) && callsSetCorner k op) || (decide (j = 2) && callsSetRequiredVertex k op))
      (fun op => (decide (j = 5) && callsUnsetCorner k op) || (decide (j = 2) && callsUnsetRequiredVertex k op) ||
        callsWriteVertex k op) ((m0.point k).tag.getLsbD j) h := by
  induction h generalizing m with
  | nil => simp only [run, Option.some.injEq] at hr; subst hr; rfl
  | cons op older ih =>
    simp only [run, Option.bind_eq_some_iff] at hr
    obtain ⟨m1, hr1, hs⟩ := hr
    have I := ih hr1
    have hf1 := run_fits hf hr1
    have hnp := run_np hf hr1
    rw [lastOf, ← I]
    by_cases ho : op.onVertex = false
    · have s := (step_frame hf1 hs).1 ho
      rw [s.tag k j hj]
      cases op <;> first
        | (simp [Op.onVertex] at ho; done)
        | simp [callsSetCorner, callsUnsetCorner, callsSetRequiredVertex, callsUnsetRequiredVertex, callsWriteVertex]
    · cases op <;> simp only [Op.onVertex, Bool.true_eq_false, not_false_eq_true, not_true_eq_false] at ho <;>
        simp only [step, Option.map_eq_some_iff, Prod.exists, exists_and_right, exists_eq_right,
          Option.some.injEq] at hs <;>
        simp only [callsSetCorner, callsUnsetCorner, callsSetRequiredVertex, callsUnsetRequiredVertex,
          callsWriteVertex, Bool.and_false, Bool.or_false, Bool.false_eq_true, if_false, Bool.false_or]
      case setVertex c ref pos =>
        obtain ⟨b, hs⟩ := hs
        rcases setVertex_cases hs hf1.p with ⟨rfl, _, hc⟩ | ⟨_, hp1, hp2, _, rfl⟩
        · have : pos ≠ k := by omega
          simp [this]
        · simp only [put, toNat_eq_iff hp1]
          by_cases e : pos = k
          · simp [e, nul_bit, hj]
          · simp [e]
      case setVertices v r =>
        rw [← hs, setVertices_eq]
        simp [hnp, h1, h2, nul_bit, hj]
      all_goals
        rw [ptag_cases hs]
        simp only [put]
        rename_i i
        by_cases e : k = i
        · subst e
          simp only [if_true, or_crn, cl_crn, or_req, cl_req, cl_nul, hj, decide_false, Bool.not_false,
            Bool.and_true, beq_self_eq_true]
          by_cases e5 : j = 5 <;> by_cases e2 : j = 2 <;> simp [e5, e2]
        · have e' : i ≠ k := fun h => e h.symm
          simp [e, e']

theorem prism_hist {eps : K} {m0 m : Mesh K} (hf : m0.Fits) {k : Nat} (h1 : 1 ≤ k) (h2 : k ≤ m0.nprism)
    (h0 : (m0.prism k).v = (fun _ => 0) ∧ (m0.prism k).ref = 0)
    {h : List (Op K)} (hr : run eps m0 h = some m) :
    (m.prism k).v = (lastPrism k h).1 ∧ (m.prism k).ref = (lastPrism k h).2 ∧
      (m.prism k).tag = (m0.prism k).tag := by
  induction h generalizing m with
  | nil => simp only [run, Option.some.injEq] at hr; subst hr; exact ⟨h0.1, h0.2, rfl⟩
  | cons op older ih =>
    simp only [run, Option.bind_eq_some_iff] at hr
    obtain ⟨m1, hr1, hs⟩ := hr
    have I := ih hr1
    have hf1 := run_fits hf hr1
    have hnp := run_nprism hf hr1
    by_cases ho : op.onPrism = false
    · rw [(step_frame hf1 hs).2.2.1 ho]
      cases op <;> first | (simp [Op.onPrism] at ho; done) | exact I
    · cases op <;> simp only [Op.onPrism, Bool.true_eq_false, not_false_eq_true, not_true_eq_false] at ho <;>
        simp only [step, Option.map_eq_some_iff, Prod.exists, exists_and_right, exists_eq_right,
          Option.some.injEq] at hs
      case setPrism v ref pos =>
        obtain ⟨b, hs⟩ := hs
        rcases setPrism_cases hs with ⟨rfl, _, hc⟩ | ⟨_, hp1, hp2, _, _, _, e⟩
        · have : pos ≠ k := by omega
          simpa [lastPrism, this] using I
        · have e' : m.prism = put m1.prism pos.toNat ⟨v, ref, (m1.prism pos.toNat).tag⟩ := by rw [e]
          rw [e']
          simp only [lastPrism, put, toNat_eq_iff hp1]
          by_cases e : pos = k
          · subst e; simp [I.2.2]
          · simp only [e, if_false]; exact I
      case setPrisms v r =>
        have e := (setPrisms_spec _ _ _ _ hs).1
        rw [e]
        simp only [hnp, h1, h2, and_self, if_true, lastPrism, vec6_eq, true_and]
        cases r with
        | none => exact ⟨I.2.1, I.2.2⟩
        | some r => exact ⟨rfl, I.2.2⟩

theorem tria_hist {eps : K} {m0 m : Mesh K} (hf : m0.Fits) {k : Nat} (h1 : 1 ≤ k) (h2 : k ≤ m0.nt)
    (h0 : (m0.tria k).v = (fun _ => 0) ∧ (m0.tria k).ref = 0)
    {h : List (Op K)} (hr : run eps m0 h = some m) :
    (m.tria k).v = (lastTria k h).1 ∧ (m.tria k).ref = (lastTria k h).2 := by
  induction h generalizing m with
  | nil => simp only [run, Option.some.injEq] at hr; subst hr; exact h0
  | cons op older ih =>
    simp only [run, Option.bind_eq_some_iff] at hr
    obtain ⟨m1, hr1, hs⟩ := hr
    have I := ih hr1
    have hf1 := run_fits hf hr1
    have hnp := run_nt hf hr1
    by_cases ho : op.onTria = false
    · rw [(step_frame hf1 hs).2.2.2.1 ho]
      cases op <;> first | (simp [Op.onTria] at ho; done) | exact I
    · cases op <;> simp only [Op.onTria, Bool.true_eq_false, not_false_eq_true, not_true_eq_false] at ho <;>
        simp only [step, Option.map_eq_some_iff, Prod.exists, exists_and_right, exists_eq_right,
          Option.some.injEq] at hs
      case setTriangle v ref pos =>
        obtain ⟨b, hs⟩ := hs
        rcases setTriangle_cases hs hf1.t with ⟨rfl, _, hc⟩ | ⟨_, hp1, hp2, _, rfl⟩
        · have : pos ≠ k := by omega
          simpa [lastTria, this] using I
        · simp only [lastTria, put, toNat_eq_iff hp1]
          by_cases e : pos = k
          · simp [e]
          · simp only [e, if_false]; exact I
      case setTriangles v r =>
        rw [← hs, setTriangles_eq]
        simp only [hnp, h1, h2, and_self, if_true, lastTria, vec3_eq, true_and]
        cases r with
        | none => exact I.2
        | some r => rfl
      case setRequiredTriangles => rw [overList_ftag (fun t => or_idem t REQ) hs]; exact I
      case unsetRequiredTriangles => rw [overList_ftag (fun t => andn_idem t REQ) hs]; exact I
      case setParallelTriangles => rw [overList_ftag (fun t => or_idem t PARBDY) hs]; exact I
      case unsetParallelTriangles => rw [overList_ftag (fun t => andn_idem t PARBDY) hs]; exact I
      all_goals
        rw [ftag_cases hs]
        simp only [put, lastTria]
        split
        · next e => subst e; exact I
        · exact I

theorem tria_bits {eps : K} {m0 m : Mesh K} (hf : m0.Fits) {k : Nat}
    {h : List (Op K)} (hr : run eps m0 h = some m) (c : Fin 3) (j : Nat) :
    ((m.tria k).tag c).getLsbD j = lastOf
      (fun op => (decide (j = 2) && callsSetRequiredTria k op) || (decide (j = 13) && callsSetParallelTria k op))
      (fun op => (decide (j = 2) && callsUnsetRequiredTria k op) ||
        (decide (j = 13) && callsUnsetParallelTria k op)) (((m0.tria k).tag c).getLsbD j) h := by
  induction h generalizing m with
  | nil => simp only [run, Option.some.injEq] at hr; subst hr; rfl
  | cons op older ih =>
    simp only [run, Option.bind_eq_some_iff] at hr
    obtain ⟨m1, hr1, hs⟩ := hr
    have I := ih hr1
    have hf1 := run_fits hf hr1
    rw [lastOf, ← I]
    by_cases ho : op.onTria = false
    · rw [(step_frame hf1 hs).2.2.2.1 ho]
      cases op <;> first
        | (simp [Op.onTria] at ho; done)
        | simp [callsSetRequiredTria, callsUnsetRequiredTria, callsSetParallelTria, callsUnsetParallelTria]
    · cases op <;> simp only [Op.onTria, Bool.true_eq_false, not_false_eq_true, not_true_eq_false] at ho <;>
        simp only [step, Option.map_eq_some_iff, Prod.exists, exists_and_right, exists_eq_right,
          Option.some.injEq] at hs <;>
        simp only [callsSetRequiredTria, callsUnsetRequiredTria, callsSetParallelTria, callsUnsetParallelTria,
          Bool.and_false, Bool.or_false, Bool.false_eq_true, if_false, Bool.false_or]
      case setTriangle v ref pos =>
        obtain ⟨b, hs⟩ := hs
        rcases setTriangle_cases hs hf1.t with ⟨rfl, _, hc⟩ | ⟨_, hp1, hp2, _, rfl⟩
        · rfl
        · simp only [put]
          split
          · next e => subst e; rfl
          · rfl
      case setTriangles v r =>
        rw [← hs, setTriangles_eq]
        simp only
        split <;> rfl
      case setRequiredTriangles l =>
        rw [overList_ftag (fun t => or_idem t REQ) hs]
        by_cases e : k ∈ l
        · simp only [e, if_true, or_req, List.contains_eq_mem, decide_true, Bool.and_true]
          by_cases e2 : j = 2 <;> simp [e2]
        · simp [e]
      case unsetRequiredTriangles l =>
        rw [overList_ftag (fun t => andn_idem t REQ) hs]
        by_cases e : k ∈ l
        · simp only [e, if_true, cl_req, List.contains_eq_mem, decide_true, Bool.and_true]
          by_cases e2 : j = 2 <;> simp [e2]
        · simp [e]
      case setParallelTriangles l =>
        rw [overList_ftag (fun t => or_idem t PARBDY) hs]
        by_cases e : k ∈ l
        · simp only [e, if_true, or_par, List.contains_eq_mem, decide_true, Bool.and_true]
          by_cases e2 : j = 13 <;> simp [e2]
        · simp [e]
      case unsetParallelTriangles l =>
        rw [overList_ftag (fun t => andn_idem t PARBDY) hs]
        by_cases e : k ∈ l
        · simp only [e, if_true, cl_par, List.contains_eq_mem, decide_true, Bool.and_true]
          by_cases e2 : j = 13 <;> simp [e2]
        · simp [e]
      all_goals
        rw [ftag_cases hs]
        simp only [put]
        rename_i i
        by_cases e : k = i
        · subst e
          simp only [if_true, or_req, cl_req, or_par, cl_par, beq_self_eq_true]
          by_cases e5 : j = 13 <;> by_cases e2 : j = 2 <;> simp [e5, e2]
        · have e' : i ≠ k := fun h => e h.symm
          simp [e, e']

theorem quad_hist {eps : K} {m0 m : Mesh K} (hf : m0.Fits) {k : Nat} (h1 : 1 ≤ k) (h2 : k ≤ m0.nquad)
    (h0 : (m0.quadra k).v = (fun _ => 0) ∧ (m0.quadra k).ref = 0)
    {h : List (Op K)} (hr : run eps m0 h = some m) :
    (m.quadra k).v = (lastQuad k h).1 ∧ (m.quadra k).ref = (lastQuad k h).2 ∧
      (m.quadra k).tag = (m0.quadra k).tag := by
  induction h generalizing m with
  | nil => simp only [run, Option.some.injEq] at hr; subst hr; exact ⟨h0.1, h0.2, rfl⟩
  | cons op older ih =>
    simp only [run, Option.bind_eq_some_iff] at hr
    obtain ⟨m1, hr1, hs⟩ := hr
    have I := ih hr1
    have hf1 := run_fits hf hr1
    have hnp := run_nquad hf hr1
    by_cases ho : op.onQuad = false
    · rw [(step_frame hf1 hs).2.2.2.2.1 ho]
      cases op <;> first | (simp [Op.onQuad] at ho; done) | exact I
    · cases op <;> simp only [Op.onQuad, Bool.true_eq_false, not_false_eq_true, not_true_eq_false] at ho <;>
        simp only [step, Option.map_eq_some_iff, Prod.exists, exists_and_right, exists_eq_right,
          Option.some.injEq] at hs
      case setQuadrilateral v ref pos =>
        obtain ⟨b, hs⟩ := hs
        rcases setQuadrilateral_cases hs with ⟨rfl, _, hc⟩ | ⟨_, hp1, hp2, _, rfl⟩
        · have : pos ≠ k := by omega
          simpa [lastQuad, this] using I
        · simp only [lastQuad, put, toNat_eq_iff hp1]
          by_cases e : pos = k
          · subst e; simp [I.2.2]
          · simp only [e, if_false]; exact I
      case setQuadrilaterals v r =>
        rw [← hs, setQuadrilaterals_eq]
        simp only [hnp, h1, h2, and_self, if_true, lastQuad, vec4_eq, true_and]
        cases r with
        | none => exact ⟨I.2.1, I.2.2⟩
        | some r => exact ⟨rfl, I.2.2⟩

theorem edge_hist {eps : K} {m0 m : Mesh K} (hf : m0.Fits) {k : Nat} (h1 : 1 ≤ k) (h2 : k ≤ m0.na)
    (h0 : (m0.edge k).v = (fun _ => 0) ∧ (m0.edge k).ref = 0)
    {h : List (Op K)} (hr : run eps m0 h = some m) :
    (m.edge k).v = (lastEdge k h).1 ∧ (m.edge k).ref = (lastEdge k h).2 := by
  induction h generalizing m with
  | nil => simp only [run, Option.some.injEq] at hr; subst hr; exact h0
  | cons op older ih =>
    simp only [run, Option.bind_eq_some_iff] at hr
    obtain ⟨m1, hr1, hs⟩ := hr
    have I := ih hr1
    have hf1 := run_fits hf hr1
    have hnp := run_na hf hr1
    by_cases ho : op.onEdge = false
    · rw [(step_frame hf1 hs).2.2.2.2.2 ho]
      cases op <;> first | (simp [Op.onEdge] at ho; done) | exact I
    · cases op <;> simp only [Op.onEdge, Bool.true_eq_false, not_false_eq_true, not_true_eq_false] at ho <;>
        simp only [step, Option.map_eq_some_iff, Prod.exists, exists_and_right, exists_eq_right,
          Option.some.injEq] at hs
      case setEdge v ref pos =>
        obtain ⟨b, hs⟩ := hs
        rcases setEdge_cases hs hf1.a with ⟨rfl, _, hc⟩ | ⟨_, hp1, hp2, _, rfl⟩
        · have : pos ≠ k := by omega
          simpa [lastEdge, this] using I
        · simp only [lastEdge, put, toNat_eq_iff hp1]
          by_cases e : pos = k
          · simp [e]
          · simp only [e, if_false]; exact I
      case setEdges v r =>
        rw [← hs, setEdges_eq]
        simp only [hnp, h1, h2, and_self, if_true, lastEdge, vec2_eq, true_and]
        cases r with
        | none => exact I.2
        | some r => rfl
      all_goals
        rw [etag_cases hs]
        simp only [put, lastEdge]
        split
        · next e => subst e; exact I
        · exact I

theorem edge_bits {eps : K} {m0 m : Mesh K} (hf : m0.Fits) {k : Nat} (h1 : 1 ≤ k) (h2 : k ≤ m0.na)
    {h : List (Op K)} (hr : run eps m0 h = some m) (j : Nat) :
    (m.edge k).tag.getLsbD j = lastOf
      (fun op => (decide (j = 1) && callsSetRidge k op) || (decide (j = 2) && callsSetRequiredEdge k op) ||
        (decide (j = 0) && callsWriteEdge k op))
      (fun op => (decide (j = 1) && callsUnsetRidge k op) || (decide (j = 2) && callsUnsetRequiredEdge k op))
      ((m0.edge k).tag.getLsbD j) h := by
  induction h generalizing m with
  | nil => simp only [run, Option.some.injEq] at hr; subst hr; rfl
  | cons op older ih =>
    simp only [run, Option.bind_eq_some_iff] at hr
    obtain ⟨m1, hr1, hs⟩ := hr
    have I := ih hr1
    have hf1 := run_fits hf hr1
    have hnp := run_na hf hr1
    rw [lastOf, ← I]
    by_cases ho : op.onEdge = false
    · rw [(step_frame hf1 hs).2.2.2.2.2 ho]
      cases op <;> first
        | (simp [Op.onEdge] at ho; done)
        | simp [callsSetRidge, callsUnsetRidge, callsSetRequiredEdge, callsUnsetRequiredEdge, callsWriteEdge]
    · cases op <;> simp only [Op.onEdge, Bool.true_eq_false, not_false_eq_true, not_true_eq_false] at ho <;>
        simp only [step, Option.map_eq_some_iff, Prod.exists, exists_and_right, exists_eq_right,
          Option.some.injEq] at hs <;>
        simp only [callsSetRidge, callsUnsetRidge, callsSetRequiredEdge, callsUnsetRequiredEdge,
          callsWriteEdge, Bool.and_false, Bool.or_false, Bool.false_eq_true, if_false, Bool.false_or]
      case setEdge c ref pos =>
        obtain ⟨b, hs⟩ := hs
        rcases setEdge_cases hs hf1.a with ⟨rfl, _, hc⟩ | ⟨_, hp1, hp2, _, rfl⟩
        · have : pos ≠ k := by omega
          simp [this]
        · simp only [put, toNat_eq_iff hp1]
          by_cases e : pos = k
          · subst e
            simp only [if_true, or_ref, Int.toNat_natCast, beq_self_eq_true, Bool.and_true]
            by_cases e0 : j = 0 <;> simp [e0]
          · simp [e]
      case setEdges v r =>
        rw [← hs, setEdges_eq]
        simp only [hnp, h1, h2, and_self, if_true, or_ref]
        by_cases e0 : j = 0 <;> simp [e0]
      all_goals
        rw [etag_cases hs]
        simp only [put]
        rename_i i
        by_cases e : k = i
        · subst e
          simp only [if_true, or_geo, cl_geo, or_req, cl_req, beq_self_eq_true, Bool.and_true]
          by_cases e5 : j = 1 <;> by_cases e2 : j = 2 <;> simp [e5, e2]
        · have e' : i ≠ k := fun h => e h.symm
          simp [e, e']

theorem tetra_bits {eps : K} {m0 m : Mesh K} (hf : m0.Fits) {k : Nat} (h1 : 1 ≤ k)
    {h : List (Op K)} (hr : run eps m0 h = some m) (j : Nat) :
    (m.tetra k).tag.getLsbD j = lastOf (fun op => decide (j = 2) && callsSetRequiredTetra k op)
      (fun op => decide (j = 2) && callsUnsetRequiredTetra k op) ((m0.tetra k).tag.getLsbD j) h := by
  induction h generalizing m with
  | nil => simp only [run, Option.some.injEq] at hr; subst hr; rfl
  | cons op older ih =>
    simp only [run, Option.bind_eq_some_iff] at hr
    obtain ⟨m1, hr1, hs⟩ := hr
    have I := ih hr1
    have hf1 := run_fits hf hr1
    rw [lastOf, ← I]
    by_cases ho : op.onTetra = false
    · rw [(step_frame hf1 hs).2.1 ho]
      cases op <;> first
        | (simp [Op.onTetra] at ho; done)
        | simp [callsSetRequiredTetra, callsUnsetRequiredTetra]
    · cases op <;> simp only [Op.onTetra, Bool.true_eq_false, not_false_eq_true, not_true_eq_false] at ho <;>
        simp only [step, Option.map_eq_some_iff, Prod.exists, exists_and_right, exists_eq_right,
          Option.some.injEq] at hs <;>
        simp only [callsSetRequiredTetra, callsUnsetRequiredTetra, Bool.and_false, Bool.or_false,
          Bool.false_eq_true, if_false, Bool.false_or]
      case setTetrahedron v ref pos =>
        obtain ⟨b, hs⟩ := hs
        rcases setTetrahedron_spec hs hf1.e with ⟨rfl, _⟩ | ⟨_, hp1, hp2, _, e, _⟩
        · rfl
        · rw [e]
          simp only [put]
          split
          · next e => subst e; rfl
          · rfl
      case setTetrahedra t r =>
        obtain ⟨b, hs⟩ := hs
        have T := setTetrahedraLoop_spec hs
        by_cases hk : 1 ≤ k ∧ k < 1 + m1.ne
        · by_cases hall : ∀ l, 1 ≤ l → l < k → eps < |orvol m1.point (given4 t l)|
          · rw [T.done k hk.1 hk.2 hall]
          · simp only [not_forall] at hall
            obtain ⟨l, a, b', c⟩ := hall
            rw [T.skip k l a b' hk.2 (not_lt.1 c)]
        · rw [T.out k (by omega)]
      case setRequiredTetrahedra l =>
        rw [overList_ttag (fun t => or_idem t REQ) hs]
        by_cases e : k ∈ l
        · simp only [e, if_true, or_req, List.contains_eq_mem, decide_true, Bool.and_true]
          by_cases e2 : j = 2 <;> simp [e2]
        · simp [e]
      case unsetRequiredTetrahedra l =>
        rw [overList_ttag (fun t => andn_idem t REQ) hs]
        by_cases e : k ∈ l
        · simp only [e, if_true, cl_req, List.contains_eq_mem, decide_true, Bool.and_true]
          by_cases e2 : j = 2 <;> simp [e2]
        · simp [e]
      all_goals
        rw [ttag_cases hs]
        simp only [put]
        rename_i i
        by_cases e : k = i
        · subst e
          simp only [if_true, or_req, cl_req, beq_self_eq_true]
          by_cases e2 : j = 2 <;> simp [e2]
        · have e' : i ≠ k := fun h => e h.symm
          simp [e, e']

end
end Mmg.Api
