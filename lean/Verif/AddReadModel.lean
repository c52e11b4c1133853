import Verif.AddModel

/-
Reading and checking a mesh after additions, through the API:

  MMG3D_Set_meshSize    mmg3d/API_functions_3d.c:256-258 (the counters are set to the numbers of entities)
  MMG3D_Get_vertex      mmg3d/API_functions_3d.c:398-423
  MMG3D_Get_tetrahedron the same with `nei` and `ne`
  MMG3D_Chk_meshData    mmg3d/API_functions_3d.c:1883-1926

The additions (AddModel.lean) do not write the counters. Not modelled in the check: the test on null arrays, made in debug mode only.
-/

namespace Mmg.Add

variable {K : Type}

/-- A mesh with its counters `npi` and `nei`, and its dimension. -/
structure Api (K : Type) where
  mesh : Mesh K
  npi : Nat
  nei : Nat
  dim : Nat

/-- The metric: `npi`, `np`, `dim`. -/
structure MetC where
  npi : Nat
  np : Nat
  dim : Nat

/-- `MMG3D_Get_vertex`: the new value of the counter, and the number of the vertex read (`none`: failure). -/
def getNext (npi np : Nat) : Nat × Option Nat :=
  let c := if npi = np then 0 else npi
  (c + 1, if np < c + 1 then none else some (c + 1))

/-- `n` calls. -/
def reads (np : Nat) : Nat → Nat → Nat × List (Option Nat)
  | 0, c => (c, [])
  | n + 1, c => ((reads np n (getNext c np).1).1, (getNext c np).2 :: (reads np n (getNext c np).1).2)

/-- `MMG3D_Chk_meshData`: API_functions_3d.c:1885-1921. -/
def chkData (A : Api K) (s : MetC) : Bool :=
  if A.npi ≠ A.mesh.pts.top ∨ A.nei ≠ A.mesh.tets.top then false
  else if s.npi ≠ s.np then false
  else if A.dim ≠ 3 then false
  else if s.dim ≠ 3 then false
  else true

end Mmg.Add
