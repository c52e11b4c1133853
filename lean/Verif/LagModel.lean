/-
  C93. Lagrangian motion: `MMG5_dikmov` (common/mmg3.c 49-103), `MMG5_chkmovmesh`, `MMG5_dispmesh`, `MMG5_mmg3d3`,
  `MMG5_intdispvol` (mmg3d/mmg3d3.c), `MMG2D_chkmovmesh`, `MMG2D_dispmesh`, `MMG2D_mmg2d9` (mmg2d/mmg2d9.c), `MMG5_packLS`,
  `MMG5_unpackLS`, `MMG5_velextLS` (mmg3d/velextls_3d.c) and those of 2D (mmg2d/velextls_2d.c).

  The two dimensions have the same text; an element is the list of its vertices.  Simplifications: positions and displacements are
  in a vector space over an ordered field; the quality (`MMG5_caltet_iso_4pt`, `MMG2D_caltri_iso_3pt`, see C67) is a function `qual`
  of the positions; the solution of the system of elasticity (library LinearElasticity) is a parameter; so are the five passes of
  local remeshing (mmg3d3.c 675-727) with their answer "failed"; `hmin`, `hmax`, statistics and messages are left out.
-/
import Verif.HashModel
import Mathlib.Algebra.Order.Field.Basic
import Mathlib.Algebra.Module.Basic

namespace Mmg.Lag

open Mmg.Hash (Outcome)

/-! ### The fraction -/

/-- The loop of `MMG5_dikmov`, mmg3.c 70-102; `t` is the value of the last pass; result: answer and `*lastt`. -/
def dikLoop (bad : Nat → Bool) : Nat → Nat → Nat → Nat → Nat × Nat
  | 0, tmin, _, t => (tmin, if tmin = 0 then t else 0)
  | fuel + 1, tmin, tmax, t =>
    if tmin = tmax then (tmin, if tmin = 0 then t else 0)
    else
      let t := (tmin + tmax) / 2
      if t = tmin then
        if bad tmax then (tmin, if tmin = 0 then tmax else 0) else (tmax, 0)
      else if bad t then dikLoop bad fuel tmin t t
      else dikLoop bad fuel t tmax t

/-- `MMG5_dikmov`, mmg3.c 49-103 (`maxit` is 200; 0 stands for the value of `t` that is not set). -/
def dik (bad : Nat → Bool) (smax : Nat) : Nat × Nat :=
  if bad smax then dikLoop bad 200 0 smax 0 else (smax, 0)

/-- `MMG3D_SHORTMAX`, `MMG2D_SHORTMAX`. -/
def SMAX : Nat := 0x7fff

/-! ### The motion -/

section
variable {K V : Type} [Field K] [LinearOrder K] [AddCommGroup V] [Module K V]

/-- What is used of mesh and displacement. -/
structure St (V : Type) where
  np : Nat
  ne : Nat
  vok : Nat → Bool
  eok : Nat → Bool
  vs : Nat → List Nat
  c : Nat → V
  v : Nat → V
  mark : Nat → Nat

/-- What does not change: quality, threshold (`MMG5_EPSOK`, `MMG2D_NULKAL`), ratio `DEGTOL`, `MMG5_EPSD2`. -/
structure Par (K V : Type) where
  qual : List V → K
  eps : K
  deg : K
  tiny : K

/-- `tau = (double)t / SHORTMAX`. -/
def frac (K : Type) [Field K] (t : Nat) : K := (t : K) / (SMAX : K)

/-- The positions of the vertices of element `k` after the fraction `τ`, mmg3d3.c 508-516. -/
def at' (τ : K) (s : St V) (k : Nat) : List V := (s.vs k).map fun x => s.c x + τ • s.v x

/-- The elements that are not valid after the fraction `t`: `chkmovmesh`, mmg3d3.c 492-528, mmg2d9.c 85-121. -/
def invalid (P : Par K V) (s : St V) (t : Nat) : List Nat :=
  (List.range' 1 s.ne).filter fun k => s.eok k && decide (P.qual (at' (frac K t) s k) < P.eps)

/-- `chkmovmesh(mesh,disp,t,NULL)`. -/
def chk (P : Par K V) (s : St V) (t : Nat) : Bool := !(invalid P s t).isEmpty

/-- `dispmesh`, mmg3d3.c 531-586, mmg2d9.c 124-177. -/
def disp (P : Par K V) (s : St V) (t itdeg : Nat) : St V :=
  let τ : K := frac K t
  { s with
    mark := fun k => if 1 ≤ k ∧ k ≤ s.ne ∧ s.eok k = true ∧ P.qual (at' τ s k) < P.deg * P.qual ((s.vs k).map s.c) then itdeg else s.mark k
    c := fun k => if 1 ≤ k ∧ k ≤ s.np ∧ s.vok k = true then s.c k + τ • s.v k else s.c k
    v := fun k => if 1 ≤ k ∧ k ≤ s.np ∧ s.vok k = true then (1 - τ) • s.v k else s.v k }

/-- State of the loops: mesh, `tau`, `t`, `lastt`. -/
structure Run (K V : Type) where
  s : St V
  tau : K
  t : Nat
  lastt : Nat

/-- The loop of 652-737 (2D 508-595), with `fuel = maxitdc - itdc`; the result has the value of `itdc`.  `rem itdc`: local remeshing. -/
def dcLoop (P : Par K V) (rem : Nat → St V → Option (St V)) : Nat → Nat → Run K V → Option (Run K V × Nat)
  | 0, itdc, r => some (r, itdc)
  | fuel + 1, itdc, r =>
    let d := dik (chk P r.s) SMAX
    if d.1 = 0 then some ({ r with t := d.1, lastt := d.2 }, itdc)
    else
      match rem itdc (disp P r.s d.1 itdc) with
      | none => none
      | some s =>
        let r' : Run K V := ⟨s, r.tau + frac K d.1 * (1 - r.tau), d.1, d.2⟩
        if d.1 = SMAX then some (r', itdc) else dcLoop P rem fuel (itdc + 1) r'

/-- The loop of 633-751 (2D 490-609); `ext`: `velextLS`. -/
def mnLoop (P : Par K V) (rem : Nat → St V → Option (St V)) (ext : St V → Option (St V)) : Nat → Run K V → Option (Run K V)
  | 0, r => some r
  | fuel + 1, r =>
    match ext r.s with
    | none => none
    | some s =>
      match dcLoop P rem 100 0 { r with s := s } with
      | none => none
      | some (r', itdc) => if r'.t = SMAX ∨ (r'.t = 0 ∧ itdc = 0) then some r' else mnLoop P rem ext fuel r'

inductive Res (K V : Type) where
  /-- return 0 -/
  | failed
  /-- return 1 -/
  | moved (r : Run K V)
  /-- return minus the number of invalid elements, with their list -/
  | stuck (r : Run K V) (l : List Nat)
  /-- write outside of the array of invalid elements -/
  | ub

/-- `MMG5_mmg3d3`, `MMG2D_mmg2d9`; `room`: the array of the invalid elements (`mesh->np` integers, 754-760) is allocated. -/
def motion (P : Par K V) (rem : Nat → St V → Option (St V)) (ext : St V → Option (St V)) (room : Bool) (s : St V) : Res K V :=
  match mnLoop P rem ext 10 ⟨{ s with mark := fun k => if 1 ≤ k ∧ k ≤ s.ne then 0 else s.mark k }, 0, 0, 0⟩ with
  | none => .failed
  | some r =>
    if r.tau < P.tiny then
      if !room then .moved r
      else if r.s.np < (invalid P r.s r.lastt).length then .ub
      else if (invalid P r.s r.lastt).length = 0 then .moved r
      else .stuck r (invalid P r.s r.lastt)
    else .moved r

/-- A new vertex `p` at the middle of the edge `a b`, with `MMG5_intdispvol` at 1/2: mmg3d3.c 82-91, 217-219, 263-275. -/
def addMid (s : St V) (p a b : Nat) : St V :=
  { s with
    vok := fun k => if k = p then true else s.vok k
    c := fun k => if k = p then (1 / 2 : K) • (s.c a + s.c b) else s.c k
    v := fun k => if k = p then (1 - 1 / 2 : K) • s.v a + (1 / 2 : K) • s.v b else s.v k }

end

/-! ### The extension of the displacement -/

/-- Topology: `vs k` vertices, `nb k` the neighbours in the order of the sides (0: none), `src k` one of the sides has the reference
`MMG5_DISPREF`. -/
structure Top where
  np : Nat
  ne : Nat
  eok : Nat → Bool
  vs : Nat → List Nat
  nb : Nat → List Nat
  src : Nat → Bool

/-- `list`, bit 0 of the flags, `perm`, `npf`. -/
structure Pk where
  list : List Nat
  flag : Nat → Bool
  perm : Nat → Nat
  npf : Nat

/-- A vertex of an element, velextls_3d.c 100-106, 138-144. -/
def seeV (p : (Nat → Nat) × Nat) (x : Nat) : (Nat → Nat) × Nat :=
  if p.1 x = 0 then (fun y => if y = x then p.2 + 1 else p.1 y, p.2 + 1) else p

/-- An element is put in the list. -/
def put (T : Top) (p : Pk) (k : Nat) : Pk :=
  let q := (T.vs k).foldl seeV (p.perm, p.npf)
  ⟨p.list ++ [k], fun j => if j = k then true else p.flag j, q.1, q.2⟩

/-- Step 1, velextls_3d.c 88-110, velextls_2d.c 75-95. -/
def sources (T : Top) : Pk :=
  ((List.range' 1 T.ne).filter fun k => T.eok k && T.src k).foldl (put T) ⟨[], fun _ => false, fun _ => 0, 0⟩

/-- A neighbour, 130-145. -/
def seeE (T : Top) (p : Pk) (j : Nat) : Pk := if j ≠ 0 ∧ T.eok j = true ∧ p.flag j = false then put T p j else p

/-- One layer, 122-149: the elements of the list after the first `done` ones. -/
def layer (T : Top) (p : Pk) (done : Nat) : Pk := (p.list.drop done).foldl (fun q k => (T.nb k).foldl (seeE T) q) p

/-- Step 2: `n` layers; `done` is `ilisto`. -/
def layers (T : Top) : Nat → Pk → Nat → Pk
  | 0, p, _ => p
  | n + 1, p, done => layers T n (layer T p done) p.list.length

/-- `packLS`, steps 1 and 2. -/
def pack (T : Top) : Pk := layers T 20 (sources T) 0

/-- `invperm`, velextls_3d.c 204-209. -/
def inverse (perm : Nat → Nat) (np : Nat) : Nat → Nat :=
  (List.range' 1 np).foldl (fun inv k => if perm k = 0 then inv else fun i => if i = perm k then k else inv i) fun _ => 0

/-- `unpackLS`, velextls_3d.c 357-377; `u i` is the solution of the vertex `i + 1` of the sub-mesh. -/
def unpack {V : Type} [Zero V] (np npf : Nat) (inv : Nat → Nat) (u : Nat → V) (v : Nat → V) : Nat → V :=
  let v0 : Nat → V := fun k => if 1 ≤ k ∧ k ≤ np then 0 else v k
  (List.range' 1 npf).foldl (fun w k => fun x => if x = inv k then u (k - 1) else w x) v0

/-- `velextLS`: `solve` gets the sub-mesh and the displacements of its vertices, in its numbering.  In 2D `*npfin` is not set when there
is no source (velextls_2d.c 121-128, then 350-354); in 3D it is 0 (velextls_3d.c 77, 111-118). -/
def extend {V : Type} [Zero V] (twoD : Bool) (T : Top) (solve : Pk → (Nat → V) → Option (Nat → V)) (v : Nat → V) : Outcome (Nat → V) :=
  let p := pack T
  if p.npf = 0 then (if twoD then .ub else .fail)
  else
    let inv := inverse p.perm T.np
    match solve p (fun i => v (inv (i + 1))) with
    | none => .fail
    | some u => .ok (unpack T.np p.npf inv u v)

/-! ### The sides given to the elasticity library -/

/-- `opp x`: the other element and side behind side `x`; `isD x`: the reference is `MMG5_DISPREF`; `inn k`: element in the list. -/
structure Sides where
  opp : Nat × Nat → Option (Nat × Nat)
  isD : Nat × Nat → Bool
  inn : Nat → Bool

/-- No neighbour in the list. -/
def Sides.border (S : Sides) (x : Nat × Nat) : Bool :=
  match S.opp x with
  | none => true
  | some y => !S.inn y.1

/-- One side in step 3, velextls_3d.c 160-187, velextls_2d.c 145-168: number of sides and marks. -/
def count1 (S : Sides) (s : Nat × (Nat × Nat → Bool)) (x : Nat × Nat) : Nat × (Nat × Nat → Bool) :=
  if S.isD x then
    if s.2 x then s
    else
      match S.opp x with
      | none => (s.1 + 1, s.2)
      | some y => (s.1 + 1, fun z => if z = y then true else s.2 z)
  else if S.border x then (s.1 + 1, s.2) else s

def count (S : Sides) (l : List (Nat × Nat)) : Nat × (Nat × Nat → Bool) := l.foldl (count1 S) (0, fun _ => false)

/-- The sides added in step 5, velextls_3d.c 233-280, velextls_2d.c 222-263, with the kind of condition (`true`: displacement given). -/
def added (S : Sides) (mk : Nat × Nat → Bool) (l : List (Nat × Nat)) : List ((Nat × Nat) × Bool) :=
  l.filterMap fun x =>
    if S.isD x then (if mk x then none else some (x, true))
    else if S.border x then some (x, false) else none

end Mmg.Lag
