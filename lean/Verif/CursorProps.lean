/-
Property C26 (and the sequential part of C23): the one by one getters of the library interface and the cursors
they use.
-/
import Verif.ApiProps

namespace Mmg.Cursor

/-! ### Model -/

/-- Entities with a one by one getter. -/
inductive Kind
  | vertex | tetra | tria | edge | prism | quad
  deriving DecidableEq

/-- The cursor of this kind is a field of the mesh (`npi`, `nei`, `nti`, `nai`); for prisms and quadrilaterals it
is a static variable of the getter (API_functions_3d.c:759 and 1012). -/
def Kind.owned : Kind → Bool
  | .prism | .quad => false
  | _ => true

/-- Numbers of entities and cursors of a mesh. -/
structure MeshC where
  size : Kind → Nat
  cur : Kind → Nat

/-- The process: meshes by identifier and the two static cursors. -/
structure Proc where
  mesh : Nat → MeshC
  npri : Nat
  nqi : Nat

def Proc.cur (p : Proc) (id : Nat) : Kind → Nat
  | .prism => p.npri
  | .quad => p.nqi
  | k => (p.mesh id).cur k

def Proc.setCur (p : Proc) (id : Nat) (k : Kind) (x : Nat) : Proc :=
  match k with
  | .prism => { p with npri := x }
  | .quad => { p with nqi := x }
  | k => { p with mesh := fun i =>
      if i = id then { p.mesh id with cur := fun k' => if k' = k then x else (p.mesh id).cur k' } else p.mesh i }

/-- The getters `MMG3D_Get_vertex`, `_tetrahedron`, `_prism`, `_triangle`, `_quadrilateral`, `_edge`
(API_functions_3d.c:398-423, 593-633, 758-800, 896-938, 1009-1052, 1131-1173): the cursor goes back to 0 when it
equals the number of entities, is incremented, and the call returns 0 (`none`) if it exceeds the number of
entities; otherwise entity number `cursor` is returned. -/
def get (p : Proc) (id : Nat) (k : Kind) : Proc × Option Nat :=
  let n := (p.mesh id).size k
  let c := if p.cur id k = n then 0 else p.cur id k
  let c := c + 1
  (p.setCur id k c, if c > n then none else some c)

/-- `MMG3D_Set_meshSize`: sizes are set and the cursors of the mesh are put at the end; the static cursors are not
touched (API_functions_3d.c:220-262). Without vertices the call is refused. -/
def setSize (p : Proc) (id : Nat) (size : Kind → Nat) : Proc :=
  if size .vertex = 0 then p
  else { p with mesh := fun i => if i = id then ⟨size, size⟩ else p.mesh i }

/-- A call. -/
inductive Op
  | get (id : Nat) (k : Kind)
  | setSize (id : Nat) (size : Kind → Nat)

def step (p : Proc) : Op → Proc
  | .get id k => (get p id k).1
  | .setSize id size => setSize p id size

/-- The state after a history, most recent call first. -/
def run (p : Proc) : List Op → Proc
  | [] => p
  | op :: h => step (run p h) op

/-! ### Specification -/

/-- The size in force of mesh `id`. -/
def sizeOf (s0 : Kind → Nat) (id : Nat) : List Op → Kind → Nat
  | [] => s0
  | .setSize id' s :: h => if id' = id ∧ s .vertex ≠ 0 then s else sizeOf s0 id h
  | _ :: h => sizeOf s0 id h

/-- How many times the getter of `k` was called on mesh `id` since its size was last set. -/
def reads (id : Nat) (k : Kind) : List Op → Nat
  | [] => 0
  | .setSize id' s :: h => if id' = id ∧ s .vertex ≠ 0 then 0 else reads id k h
  | .get id' k' :: h => (if id' = id ∧ k' = k then 1 else 0) + reads id k h

/-! ### Proofs -/

theorem cur_setCur (p : Proc) (id id' : Nat) (k k' : Kind) (x : Nat) :
    (p.setCur id k x).cur id' k' =
      if k' = k ∧ (id' = id ∨ k.owned = false) then x else p.cur id' k' := by
  cases k <;> cases k' <;> simp only [Proc.setCur, Proc.cur, Kind.owned] <;> (try simp) <;>
    (by_cases h : id' = id <;> simp [h])

theorem size_setCur (p : Proc) (id id' : Nat) (k : Kind) (x : Nat) :
    ((p.setCur id k x).mesh id').size = (p.mesh id').size := by
  cases k <;> simp only [Proc.setCur] <;> by_cases h : id' = id <;> simp [h]

theorem size_run (p : Proc) (id : Nat) (h : List Op) :
    ((run p h).mesh id).size = sizeOf (p.mesh id).size id h := by
  induction h with
  | nil => rfl
  | cons op h ih =>
    cases op with
    | get id' k => simp only [run, step, get, size_setCur, sizeOf, ih]
    | setSize id' s =>
      simp only [run, step, setSize, sizeOf]
      by_cases h0 : s .vertex = 0
      · simp [h0, ih]
      · by_cases h1 : id' = id
        · subst h1; simp [h0]
        · simp [h0, h1, Ne.symm h1, ih]

/-- The cursor is where `r` reads put it. -/
def Good (n c r : Nat) : Prop := if n = 0 then True else c = r % n ∨ (r % n = 0 ∧ c = n)

theorem good_next {n c r : Nat} (h : Good n c r) :
    Good n ((if c = n then 0 else c) + 1) (r + 1) ∧
    (n ≠ 0 → (if c = n then 0 else c) + 1 = r % n + 1) := by
  unfold Good at *
  by_cases h0 : n = 0
  · simp [h0]
  · rw [if_neg h0] at h ⊢
    have hl := Nat.mod_lt r (Nat.pos_of_ne_zero h0)
    have e : (if c = n then 0 else c) = r % n := by
      rcases h with h | ⟨h1, h2⟩
      · rw [if_neg (by omega), h]
      · rw [if_pos h2, h1]
    rw [e]
    refine ⟨?_, fun _ => rfl⟩
    have hm : (r + 1) % n = (r % n + 1) % n := by rw [Nat.add_mod, Nat.add_mod (r % n)]; simp
    by_cases hs : r % n + 1 = n
    · right; rw [hm, hs, Nat.mod_self]; exact ⟨rfl, rfl⟩
    · left; rw [hm]; exact (Nat.mod_eq_of_lt (by omega)).symm

theorem owned_good (p : Proc) (id : Nat) (k : Kind) (hk : k.owned = true) (h : List Op)
    (hp : p.cur id k = (p.mesh id).size k) :
    Good (sizeOf (p.mesh id).size id h k) ((run p h).cur id k) (reads id k h) := by
  induction h with
  | nil =>
    simp only [sizeOf, run, reads, hp, Good]
    by_cases h0 : (p.mesh id).size k = 0
    · simp [h0]
    · simp [h0]
  | cons op h ih =>
    cases op with
    | get id' k' =>
      simp only [run, step, get, reads, sizeOf, cur_setCur]
      by_cases e : id' = id ∧ k' = k
      · obtain ⟨rfl, rfl⟩ := e
        simp only [true_or, and_true, if_true]
        rw [size_run, Nat.add_comm 1 (reads id' k' h)]
        exact (good_next ih).1
      · rw [if_neg e, if_neg, Nat.zero_add]
        · exact ih
        · rintro ⟨rfl, rfl | h2⟩
          · exact e ⟨rfl, rfl⟩
          · rw [hk] at h2; cases h2
    | setSize id' s =>
      simp only [run, step, setSize, sizeOf, reads]
      by_cases h0 : s .vertex = 0
      · simp [h0, ih]
      · by_cases h1 : id' = id
        · subst h1
          have : ∀ q : Proc, ({ q with mesh := fun i => if i = id' then ⟨s, s⟩ else q.mesh i } : Proc).cur id' k
              = s k := by
            intro q; cases k <;> simp [Proc.cur, Kind.owned] at hk ⊢
          simp only [h0, if_false, ne_eq, not_false_eq_true, and_self, if_true, this, Good]
          by_cases hz : s k = 0 <;> simp [hz]
        · have : ∀ q : Proc, ({ q with mesh := fun i => if i = id' then ⟨s, s⟩ else q.mesh i } : Proc).cur id k
              = q.cur id k := by
            intro q; cases k <;> simp [Proc.cur, Ne.symm h1]
          simp only [h0, if_false, h1, false_and, this]
          exact ih

/-- **C26** Vertices, tetrahedra, triangles and edges: whatever calls were made on this and other meshes (getters
of all kinds, sizes set again), the next call of a getter returns entity `r mod n + 1`, where `n` is the number
of entities and `r` the number of calls of this getter on this mesh since its size was set: sweeps of `n` calls
return `1..n` in order, for ever. With no entity the call fails. -/
theorem C26_sweeps (p : Proc) (id : Nat) (k : Kind) (hk : k.owned = true) (h : List Op)
    (hp : p.cur id k = (p.mesh id).size k) :
    (get (run p h) id k).2 =
      if sizeOf (p.mesh id).size id h k = 0 then none
      else some (reads id k h % sizeOf (p.mesh id).size id h k + 1) := by
  have g := good_next (owned_good p id k hk h hp)
  simp only [get, size_run]
  generalize sizeOf (p.mesh id).size id h k = n at *
  by_cases h0 : n = 0
  · simp [h0]
  · rw [g.2 h0, if_neg h0]
    have := Nat.mod_lt (reads id k h) (Nat.pos_of_ne_zero h0)
    rw [if_neg (by omega)]

/-- **C26** The same for prisms and quadrilaterals, partial: it holds as long as these getters are called on one
mesh only and its size is not set again. The counterexamples below show both conditions are needed. -/
theorem C26_static_sweeps_partial (p : Proc) (id : Nat) (k : Kind) (hk : k.owned = false) (h : List Op)
    (hp : p.cur id k = 0) (hone : ∀ op ∈ h, match op with
      | .get id' k' => k' = k → id' = id
      | .setSize id' _ => id' ≠ id) :
    (get (run p h) id k).2 =
      if (p.mesh id).size k = 0 then none else some (reads id k h % (p.mesh id).size k + 1) := by
  have key : sizeOf (p.mesh id).size id h = (p.mesh id).size ∧
      Good ((p.mesh id).size k) ((run p h).cur id k) (reads id k h) := by
    induction h with
    | nil => exact ⟨rfl, by simp only [run, hp, reads, Good]; split <;> simp⟩
    | cons op h ih =>
      obtain ⟨ih1, ih2⟩ := ih (fun o ho => hone o (by simp [ho]))
      have ho := hone op (by simp)
      cases op with
      | get id' k' =>
        simp only at ho
        refine ⟨ih1, ?_⟩
        simp only [run, step, get, reads, cur_setCur]
        by_cases e : k' = k
        · have := ho e
          subst e; subst this
          simp only [true_or, and_true, if_true]
          rw [size_run, ih1, Nat.add_comm 1 (reads id' k' h)]
          exact (good_next ih2).1
        · rw [if_neg (by rintro ⟨h1, _⟩; exact e h1.symm), if_neg (by rintro ⟨_, h1⟩; exact e h1), Nat.zero_add]
          exact ih2
      | setSize id' s =>
        simp only at ho
        refine ⟨by simp [sizeOf, ho, ih1], ?_⟩
        simp only [run, step, setSize, reads, ho, false_and, if_false]
        split
        · exact ih2
        · cases k <;> simp [Kind.owned] at hk <;> exact ih2
  have g := good_next key.2
  simp only [get, size_run, key.1]
  generalize (p.mesh id).size k = n at *
  by_cases h0 : n = 0
  · simp [h0]
  · rw [g.2 h0, if_neg h0]
    have := Nat.mod_lt (reads id k h) (Nat.pos_of_ne_zero h0)
    rw [if_neg (by omega)]

/-- Two meshes with 3 prisms (mesh 0) and 2 prisms (mesh 1), 4 vertices each. -/
def two : Proc where
  mesh := fun i => if i = 0 then ⟨fun k => if k = .prism then 3 else 4, fun k => if k = .prism then 3 else 4⟩
    else ⟨fun k => if k = .prism then 2 else 4, fun k => if k = .prism then 2 else 4⟩
  npri := 0
  nqi := 0

/-- **C26**, refuted for prisms (a): the first prism read in mesh 1, after one read in mesh 0, is its second. -/
theorem C26_prisms_interleaved_false :
    (get (run two [.get 0 .prism]) 1 .prism).2 = some 2 ∧ reads 1 .prism [.get 0 .prism] = 0 := by decide

/-- **C26**, refuted for prisms (b): after reading the three prisms of mesh 0, no number of reads of mesh 1 ever
succeeds. -/
theorem C26_prisms_stuck_false (n : Nat) :
    (get (run two (List.replicate n (.get 1 .prism) ++ [.get 0 .prism, .get 0 .prism, .get 0 .prism]))
      1 .prism).2 = none := by
  have key : ∀ n, (run two (List.replicate n (.get 1 .prism) ++
      [.get 0 .prism, .get 0 .prism, .get 0 .prism])).npri = n + 3 ∧
      ((run two (List.replicate n (.get 1 .prism) ++
      [.get 0 .prism, .get 0 .prism, .get 0 .prism])).mesh 1).size .prism = 2 := by
    intro n
    induction n with
    | zero => decide
    | succ n ih =>
      simp only [List.replicate_succ, List.cons_append, run, step, get, size_setCur, ih.2, and_true]
      simp only [Proc.setCur, Proc.cur, ih.1]
      rw [if_neg (by omega)]
  obtain ⟨h1, h2⟩ := key n
  simp only [get, h2, Proc.cur, h1]
  rw [if_neg (show ¬ n + 3 = 2 by omega), if_pos (by omega)]

/-- **C26**, refuted for prisms (c): one mesh whose size is set again (from 3 prisms to 2) after three reads cannot
be read any more. -/
theorem C26_prisms_resized_false :
    (get (run two [.setSize 0 (fun k => if k = .prism then 2 else 4), .get 0 .prism, .get 0 .prism,
      .get 0 .prism]) 0 .prism).2 = none := by decide

/-- The hypotheses of `C26_sweeps` hold; reads of other kinds and meshes in between do not matter. -/
example : (get (run two [.get 0 .vertex, .get 1 .vertex, .get 0 .prism, .get 0 .tetra, .get 0 .vertex]) 0
    .vertex).2 = some 3 := by
  rw [C26_sweeps two 0 .vertex rfl _ rfl]; decide

example : (get (run two [.get 0 .prism, .get 1 .vertex, .get 0 .prism, .get 0 .prism, .get 0 .prism]) 0
    .prism).2 = some 2 := by
  rw [C26_static_sweeps_partial two 0 .prism rfl _ rfl (by
    intro op h; simp at h; rcases h with rfl | rfl | rfl | rfl | rfl <;> simp)]
  decide

/-- **C23** Reading the vertices one by one: the call that follows `r` reads since the size was set returns the
vertex `r mod np + 1` as the getter by index does. The mesh `m` and the cursors `p` describe the same mesh. -/
theorem C23_sequential {K : Type} (m : Api.Mesh K) (p : Proc) (id : Nat) (h : List Op)
    (hp : p.cur id .vertex = (p.mesh id).size .vertex)
    (hs : sizeOf (p.mesh id).size id h .vertex = m.np) (hnp : m.np ≠ 0) :
    (get (run p h) id .vertex).2.bind (fun k => Api.getByIdxVertex m k) =
      Api.getByIdxVertex m ((reads id .vertex h % m.np + 1 : Nat) : Int) ∧
    (Api.getByIdxVertex m ((reads id .vertex h % m.np + 1 : Nat) : Int)).isSome := by
  rw [C26_sweeps p id .vertex rfl h hp, hs, if_neg hnp]
  refine ⟨rfl, ?_⟩
  have := Nat.mod_lt (reads id .vertex h) (Nat.pos_of_ne_zero hnp)
  unfold Api.getByIdxVertex
  rw [if_neg (by omega)]
  rfl

end Mmg.Cursor
