/-
  C74: concrete cases.
-/
import Verif.LsSnap

namespace Mmg.Ls3.Ex
open Mmg.Split3

instance : DecidableEq (Pt ℚ) := fun p q =>
  if h : p.x = q.x ∧ p.y = q.y ∧ p.z = q.z then .isTrue (by cases p; cases q; simp_all)
  else .isFalse (by rintro rfl; exact h ⟨rfl, rfl, rfl⟩)

def tet (v : List Nat) (ref : Int) (req : Bool := false) : LTet :=
  { t := ⟨v, List.replicate 6 0, List.replicate 6 0, List.replicate 4 0, List.replicate 4 0,
      List.replicate 4 false⟩, ref, req }

def no (_ : Nat) : BitVec 16 := 0

/-- New points get the numbers from 10 on. -/
def env (spl : Int → Option (Int × Int)) : Env := ⟨spl, fun _ => true, fun _ => true, fun i => i + 10⟩

def pts (p : Nat) : Pt ℚ :=
  [⟨0, 0, 0⟩, ⟨0, 0, 0⟩, ⟨1, 0, 0⟩, ⟨0, 1, 0⟩, ⟨0, 0, 1⟩, ⟨1, 1, -1⟩, ⟨-1, 0, 1⟩, ⟨0, -1, 1⟩].getD p ⟨0, 0, 0⟩

/-! ### Two tetrahedra on both sides of the level set, one of them required -/

def two : List LTet := [tet [1, 2, 3, 4] 1, tet [1, 3, 2, 5] 7 true]

def val (p : Nat) : ℚ := [0, -1, 1, 1, 0, 3].getD p 0

def E0 : Env := env fun _ => some Mat.isSplit0

theorem two_given : Given E0 (1/1000) (1/100000) val two where
  small := by norm_num
  pos := by norm_num
  half := by norm_num
  fresh := by
    refine ⟨fun i => by simp [E0, env], fun i j h => by simpa [E0, env] using h, ?_⟩
    intro i m hm
    have : ∀ m ∈ two, ∀ p ∈ m.t.v, p < 10 := by decide
    intro h
    have := this m hm _ h
    simp only [E0, env] at this
    omega
  wf := by
    intro m hm
    simp only [two, List.mem_cons, List.not_mem_nil, or_false] at hm
    rcases hm with rfl | rfl <;> exact ⟨⟨rfl, rfl, rfl, rfl, rfl, rfl⟩, by decide⟩
  vals := by decide +kernel
  mem := fun _ => rfl

def res : Out ℚ := cuttet E0 true (1/1000) (1/100000) no pts val two

/-- The first tetrahedron is cut in three, the second one in four. -/
example : res.ret = 2 ∧ res.s.n = 3 ∧ res.ms.length = 7 ∧ (res.ms.map (·.ref)) = [1, 1, 1, 7, 7, 7, 7] ∧
    res.s.c 10 = ⟨1/2, 0, 0⟩ ∧ res.s.sol 10 = 0 := by decide +kernel

example : Given E0 (1/1000) (1/100000) val two ∧ (∀ m ∈ two, ∃ p ∈ m.t.v, val p ≠ 0) ∧
    (∀ m ∈ two, 0 < volOf pts m.t.v) ∧ (∀ m ∈ two, (E0.spl m.ref).isSome ∨ ¬ TwoTwo val m.t.v) ∧ res.ret ≠ 0 ∧
    (∃ x, discretize E0 true (1/1000) (1/100000) no pts val two = some x) := by
  refine ⟨two_given, by decide +kernel, by decide +kernel, fun _ _ => .inl rfl, by decide +kernel, ?_⟩
  exact Option.isSome_iff_exists.1 (by decide +kernel)

/-! ### A table of materials -/

def mats : List Mat.Mat := [⟨1, 1, 10, 1⟩, ⟨0, 5, 5, 5⟩]

theorem mats_ok : Mat.Unambiguous mats := Mat.sampleTable_ok

def im : Mat.InvMat := (Mat.init 1000 mats [1, 5]).get (by decide)

def E1 : Env := env fun r => (Mat.isSplit mats im r).getD none

def twoMat : List LTet := [tet [1, 2, 3, 4] 1, tet [1, 3, 2, 5] 5]

/-- The hypotheses of C74_restart hold; the second tetrahedron, of a reference that is not split, is cut
because its neighbour is. -/
example : Mat.init 1000 mats [1, 5] = some im ∧ (∀ m ∈ twoMat, ∃ row ∈ mats, m.ref = row.ref) ∧
    (discretize E1 true (1/1000) (1/100000) no pts val twoMat).map (fun x => x.2.map (·.ref)) =
      some [10, 1, 1, 5, 5, 5] :=
  ⟨(Option.some_get _).symm, by decide +kernel, by decide +kernel⟩

/-! ### Snapping -/

def sv (p : Nat) : ℚ := [0, 1/1000, -1, 1, -1/500, 1].getD p 0

/-- Vertex 1 may not be on the surface. -/
def man (_ : Nat → ℚ) (k i : Nat) : Bool := decide (([1, 2, 3, 4].getD i 0 ≠ 1) ∨ k = 5)

/-- Vertex 1 is snapped and then moved away, vertex 4 stays on the surface. -/
example : (snpval (1/100) (1/10000000) (fun _ => true) man 4 [⟨[1, 2, 3, 4], 1⟩] sv 5).map
    (fun s => (List.range' 1 4).map s.sol) = some [1, -1, 1, 0] := by decide +kernel

example : (4 : Nat) < 5 ∧ ∀ q ∈ [(⟨[1, 2, 3, 4], 1⟩ : QTet ℚ)], q.v.length = 4 ∧
    ∀ p ∈ q.v, (true : Bool) = true ∧ 1 ≤ p ∧ p ≤ 4 := by
  refine ⟨by omega, ?_⟩
  intro q hq
  rw [List.mem_singleton.1 hq]
  exact ⟨rfl, by decide⟩

/-! ### What is not protected -/

def hval (p : Nat) : ℚ := [0, -1, -1, 1, 1, -1, -1, -1].getD p 0

/-- The tetrahedron 1 2 3 4 has a reference that is not split; two neighbours are split. -/
def hang : List LTet := [tet [1, 2, 3, 4] 5, tet [1, 3, 2, 5] 1, tet [1, 6, 7, 4] 1]

def hres : Out ℚ := cuttet E1 true (1/1000) (1/100000) no pts hval hang

/-- **C74, missing case.**  A tetrahedron of a reference that is not split, with two positive and two
negative vertices, keeps the edge 1 3 although the neighbour has a vertex in its middle: the mesh returned
is not conforming, without error. -/
theorem C74_hanging_observed :
    (∀ m ∈ hang, 0 < volOf pts m.t.v) ∧ hres.ret = 2 ∧ tet [1, 2, 3, 4] 5 ∈ hang ∧
    (∃ x ∈ hres.ms, x.t.v = [1, 2, 3, 4]) ∧
    (∃ x ∈ hres.ms, ∃ p ∈ x.t.v, hres.s.c p = (pts 1).lerp (pts 3) (1/2)) ∧
    (discretize E1 true (1/1000) (1/100000) no pts hval hang).isSome := by
  refine ⟨by decide +kernel, by decide +kernel, List.mem_cons_self, by decide +kernel, by decide +kernel,
    by decide +kernel⟩

/-- **C74.** When the level set only crosses references that are not split, an error is returned though
nothing has to be done. -/
theorem C74_only_unsplit_observed :
    discretize E1 true (1/1000) (1/100000) no pts val [tet [1, 2, 3, 4] 5] = none ∧
    (discretize E1 true (1/1000) (1/100000) no pts (fun _ => (1 : ℚ)) [tet [1, 2, 3, 4] 5]).isSome := by
  constructor
  · have h : (cuttet E1 true (1/1000) (1/100000) no pts val [tet [1, 2, 3, 4] 5]).ret = 0 := by
      decide +kernel
    unfold discretize
    simp only
    rw [if_pos h]
  · decide +kernel

/-- The table gets no memory for its first entry. -/
def E2 : Env := { E0 with ok := fun _ => false }

def reqOne : List LTet := [tet [1, 2, 3, 4] 1 true]

/-- **C74.** When there is no memory for the required edges the value -1 is returned, which is taken as a
success: the tetrahedron crossed by the level set is not cut and gets a reference. -/
theorem C74_memory_observed :
    (cuttet E2 true (1/1000) (1/100000) no pts val reqOne).ret = -1 ∧
    (discretize E2 true (1/1000) (1/100000) no pts val reqOne).map
      (fun x => x.2.map fun y => (y.t.v, y.ref)) = some [([1, 2, 3, 4], 2)] := by
  constructor <;> decide +kernel

/-- The first entry of the table gets no memory, the next ones do. -/
def E3 : Env := { E0 with ok := fun n => decide (n ≠ 0) }

/-- **C74.** A lack of memory for the point of an edge is not seen either: the tetrahedron is cut at one of
the two edges only, and a piece with vertices on both sides gets the reference of the outside. -/
theorem C74_memory_points_observed :
    (discretize E3 true (1/1000) (1/100000) no pts val [tet [1, 2, 3, 4] 1]).map
      (fun x => x.2.map fun y => (y.t.v.map x.1.sol, y.ref)) =
        some [([0, 1, 1, 0], 2), ([-1, 1, 0, 0], 2)] := by
  decide +kernel

end Mmg.Ls3.Ex
