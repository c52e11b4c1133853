/-
Property C27: solutions at vertices through the library interface.
-/
import Mathlib.Data.Rat.Defs
import Mathlib.Data.Fin.VecNotation
import Mathlib.Tactic.Ring
import Mathlib.Data.Nat.ModEq
import Verif.Util

namespace Mmg.Sol

set_option linter.dupNamespace false
set_option linter.unusedVariables false

variable {K : Type}

/-! ### Model -/

/-- Types of solutions. -/
inductive Typ
  | scalar | vector | tensor
  deriving DecidableEq

/-- Number of values per vertex, `MMG3D_Set_solSize`, API_functions_3d.c:129-146. -/
def Typ.comps : Typ → Nat
  | .scalar => 1
  | .vector => 3
  | .tensor => 6

/-- A solution structure: type, number of values per vertex, number of vertices, allocated number, cursor, flat
array of `size*(npmax+1)` values. The cursor may be any integer (`MMG3D_Get_ithSol_inSolsAtVertices` stores
`pos-1`). -/
structure Sol (K : Type) where
  typ : Typ
  size : Nat
  np : Nat
  npmax : Nat
  npi : Int
  m : Nat → K

def put (f : Nat → K) (i : Nat) (x : K) : Nat → K := fun j => if j = i then x else f j

/-- `f[base+c] = v[c]` for `c = 0, .., n-1`. -/
def puts (f : Nat → K) (base : Nat) (v : Nat → K) : Nat → Nat → K
  | 0 => f
  | n + 1 => put (puts f base v n) (base + n) (v n)

/-- `MMG3D_Set_solSize` for a non zero number of vertices, API_functions_3d.c:116-159: type, sizes, cursor at the
end and zeroed array. -/
def fresh [Zero K] (typ : Typ) (np npmax : Nat) : Sol K :=
  ⟨typ, typ.comps, np, npmax, np, fun _ => 0⟩

/-- `MMG3D_Set_scalarSol`, `MMG3D_Set_vectorSol`, `MMG3D_Set_tensorSol` (API_functions_3d.c:1434-1467, 1523-1558,
1627-1669): the same tests, then `t.comps` values are written at `t.comps*pos`. `none`: write outside the array
(the type of the call is not that of the solution). -/
def setOne (s : Sol K) (t : Typ) (v : Nat → K) (pos : Int) : Option (Sol K × Bool) :=
  if s.np = 0 then some (s, false)
  else if pos < 1 then some (s, false)
  else if pos ≥ s.npmax then some (s, false)
  else if pos > s.np then some (s, false)
  else if s.size * (s.npmax + 1) < t.comps * pos.toNat + t.comps then none
  else some ({ s with m := puts s.m (t.comps * pos.toNat) v t.comps }, true)

/-- Loop of the block setters: for `k = 0, .., n-1`, `m[c*k+c+i] = v[c*k+i]`. -/
def blockLoop (c : Nat) (v : Nat → K) : Nat → (Nat → K) → Nat → K
  | 0, m => m
  | n + 1, m => puts (blockLoop c v n m) (c * n + c) (fun i => v (c * n + i)) c

/-- `MMG3D_Set_scalarSols`, `_vectorSols`, `_tensorSols` (1498-1512, 1593-1614, 1709-1734). -/
def setAll (s : Sol K) (t : Typ) (v : Nat → K) : Option (Sol K × Bool) :=
  if s.np = 0 then some (s, false)
  else if s.size * (s.npmax + 1) < t.comps * (s.np + 1) then none
  else some ({ s with m := blockLoop t.comps v s.np s.m }, true)

/-- `MMG3D_Get_scalarSol`, `_vectorSol`, `_tensorSol` (1469-1496, 1561-1591, 1672-1707). Result: new state and the
values (`none` inside: the call returns 0). Outer `none`: read outside the array. -/
def getOne (s : Sol K) (t : Typ) : Option (Sol K × Option (Nat → K)) :=
  let i := (if s.npi = s.np then 0 else s.npi) + 1
  let s' := { s with npi := i }
  if i > s.np then some (s', none)
  else if i < 0 ∨ s.size * (s.npmax + 1) < t.comps * i.toNat + t.comps then none
  else some (s', some fun c => s.m (t.comps * i.toNat + c))

/-- Loop of the block getters: `v[c*k+i] = m[c*k+c+i]`. -/
def readLoop (c : Nat) (m : Nat → K) : Nat → (Nat → K) → Nat → K
  | 0, b => b
  | n + 1, b => puts (readLoop c m n b) (c * n) (fun i => m (c * n + c + i)) c

/-- `MMG3D_Get_scalarSols`, `_vectorSols`, `_tensorSols` (1514-1521, 1616-1628, 1736-1752). -/
def getAll (s : Sol K) (t : Typ) (b : Nat → K) : Option (Nat → K) :=
  if s.size * (s.npmax + 1) < t.comps * (s.np + 1) ∧ s.np ≠ 0 then none
  else some (readLoop t.comps s.m s.np b)

/-- `MMG3D_Set_ithSol_inSolsAtVertices` on the chosen solution (1754-1778): for vectors and tensors the result of
the call is ignored and 1 is returned. -/
def setIth (s : Sol K) (v : Nat → K) (pos : Int) : Option (Sol K × Bool) :=
  match s.typ with
  | .scalar => setOne s .scalar v pos
  | t => (setOne s t v pos).map fun r => (r.1, true)

/-- `MMG3D_Get_ithSol_inSolsAtVertices` on the chosen solution (1780-1807): the cursor is moved before `pos` and the
sequential getter is called; for vectors and tensors 1 is returned in any case, leaving the caller's buffer `b`
as it was when the getter failed. -/
def getIth (s : Sol K) (pos : Int) (b : Nat → K) : Option (Sol K × Bool × (Nat → K)) :=
  (getOne { s with npi := pos - 1 } s.typ).map fun r =>
    (r.1, r.2.isSome || s.typ != .scalar, fun c => if c < s.typ.comps then (r.2.getD b) c else b c)

/-- Calls of the interface, all made with the type of the solution. -/
inductive Op (K : Type)
  | setOne (v : Nat → K) (pos : Int)
  | setAll (v : Nat → K)
  | setIth (v : Nat → K) (pos : Int)
  | getOne
  | getIth (pos : Int)

def step (s : Sol K) : Op K → Option (Sol K)
  | .setOne v pos => (setOne s s.typ v pos).map (·.1)
  | .setAll v => (setAll s s.typ v).map (·.1)
  | .setIth v pos => (setIth s v pos).map (·.1)
  | .getOne => (getOne s s.typ).map (·.1)
  | .getIth pos => (getOne { s with npi := pos - 1 } s.typ).map (·.1)

/-- The state after a history, most recent call first. -/
def run (s : Sol K) : List (Op K) → Option (Sol K)
  | [] => some s
  | op :: h => (run s h).bind (step · op)

/-! ### Specification -/

/-- The value of component `c` last accepted for position `pos`, from the list of calls only. A position is
accepted when it is at most `np` and less than `npmax`. -/
def lastValue [Zero K] (n np npmax : Nat) (pos : Nat) (c : Nat) : List (Op K) → K
  | [] => 0
  | .setOne v p :: h | .setIth v p :: h =>
    if p = pos ∧ pos ≤ np ∧ pos < npmax then v c else lastValue n np npmax pos c h
  | .setAll v :: h => if pos ≤ np then v (n * (pos - 1) + c) else lastValue n np npmax pos c h
  | _ :: h => lastValue n np npmax pos c h

/-! ### Proofs -/

theorem puts_in (f : Nat → K) (base : Nat) (v : Nat → K) (n c : Nat) (h : c < n) :
    puts f base v n (base + c) = v c := by
  induction n with
  | zero => omega
  | succ n ih =>
    simp only [puts, put]
    by_cases e : c = n
    · subst e; simp
    · rw [if_neg (by omega)]; exact ih (by omega)

theorem puts_out (f : Nat → K) (base : Nat) (v : Nat → K) (n x : Nat) (h : x < base ∨ base + n ≤ x) :
    puts f base v n x = f x := by
  induction n with
  | zero => rfl
  | succ n ih =>
    simp only [puts, put]
    rw [if_neg (by omega)]; exact ih (by omega)

theorem stride {n a b c d : Nat} (hc : c < n) (hd : d < n) : n * a + c = n * b + d ↔ a = b ∧ c = d := by
  constructor
  · intro h
    have h1 : (n * a + c) / n = (n * b + d) / n := by rw [h]
    have hn : 0 < n := by omega
    rw [Nat.mul_add_div hn, Nat.mul_add_div hn, Nat.div_eq_of_lt hc, Nat.div_eq_of_lt hd] at h1
    have : a = b := by omega
    subst this
    exact ⟨rfl, by omega⟩
  · rintro ⟨rfl, rfl⟩; rfl

/-- Writing the values of entry `p` changes only entry `p`. -/
theorem puts_entry (f : Nat → K) (n p q c : Nat) (v : Nat → K) (hc : c < n) :
    puts f (n * p) v n (n * q + c) = if q = p then v c else f (n * q + c) := by
  by_cases h : q = p
  · subst h; rw [if_pos rfl]; exact puts_in f _ v n c hc
  · rw [if_neg h]
    refine puts_out f _ v n _ ?_
    by_contra hcon
    have h1 : n * p ≤ n * q + c := by omega
    have h2 : n * q + c < n * p + n := by omega
    obtain ⟨d, hd⟩ := Nat.exists_eq_add_of_le h1
    have := (stride (n := n) (a := q) (b := p) (c := c) (d := d) hc (by omega)).1 hd
    exact h this.1

theorem blockLoop_entry (c : Nat) (v : Nat → K) (n : Nat) (m : Nat → K) (q i : Nat) (hi : i < c) :
    blockLoop c v n m (c * q + i) = if 1 ≤ q ∧ q ≤ n then v (c * (q - 1) + i) else m (c * q + i) := by
  induction n with
  | zero => simp only [blockLoop]; rw [if_neg (by omega)]
  | succ n ih =>
    simp only [blockLoop]
    rw [show c * n + c = c * (n + 1) by ring, puts_entry _ _ _ _ _ _ hi, ih]
    by_cases h : q = n + 1
    · subst h
      simp
    · rw [if_neg h]
      by_cases h2 : 1 ≤ q ∧ q ≤ n
      · rw [if_pos h2, if_pos (by omega)]
      · rw [if_neg h2, if_neg (by omega)]

theorem readLoop_entry (c : Nat) (m : Nat → K) (n : Nat) (b : Nat → K) (q i : Nat) (hi : i < c) :
    readLoop c m n b (c * q + i) = if q < n then m (c * (q + 1) + i) else b (c * q + i) := by
  induction n with
  | zero => rfl
  | succ n ih =>
    simp only [readLoop]
    rw [puts_entry _ _ _ _ _ _ hi, ih]
    by_cases h : q = n
    · subst h
      rw [if_pos rfl, if_pos (by omega)]
      congr 1
    · rw [if_neg h]
      by_cases h2 : q < n
      · rw [if_pos h2, if_pos (by omega)]
      · rw [if_neg h2, if_neg (by omega)]

/-- Everything but the array and the cursor is as just after `MMG3D_Set_solSize`. -/
structure Shape (t : Typ) (n nmax : Nat) (s : Sol K) : Prop where
  typ : s.typ = t
  size : s.size = t.comps
  np : s.np = n
  npmax : s.npmax = nmax

theorem getIth_eq {s : Sol K} {t : Typ} (h : s.typ = t) (pos : Int) (b : Nat → K) :
    getIth s pos b = (getOne { s with npi := pos - 1 } t).map fun r =>
      (r.1, r.2.isSome || t != .scalar, fun c => if c < t.comps then (r.2.getD b) c else b c) := by
  subst h; rfl

theorem step_getIth {s : Sol K} {t : Typ} (h : s.typ = t) (pos : Int) :
    step s (.getIth pos) = (getOne { s with npi := pos - 1 } t).map (·.1) := by
  subst h; rfl

theorem comps_pos (t : Typ) : 1 ≤ t.comps := by cases t <;> decide

theorem room {n p q : Nat} (h : p ≤ q) : ¬ n * (q + 1) < n * p + n := by
  have : n * p + n = n * (p + 1) := by ring
  rw [this]
  exact Nat.not_lt.2 (Nat.mul_le_mul_left n (by omega))

theorem setOne_spec {typ : Typ} {np npmax : Nat} {s : Sol K} (hs : Shape typ np npmax s) (hn : np ≤ npmax)
    (v : Nat → K) (pos : Int) :
    (setOne s typ v pos = some (s, false) ∧ ¬ (1 ≤ pos ∧ pos ≤ np ∧ pos < npmax)) ∨
    (setOne s typ v pos = some ({ s with m := puts s.m (typ.comps * pos.toNat) v typ.comps }, true) ∧
      1 ≤ pos ∧ pos ≤ np ∧ pos < npmax) := by
  unfold setOne
  rw [hs.size, hs.np, hs.npmax]
  split_ifs with h0 h1 h2 h3 h4
  · left; exact ⟨rfl, by omega⟩
  · left; exact ⟨rfl, by omega⟩
  · left; exact ⟨rfl, by omega⟩
  · left; exact ⟨rfl, by omega⟩
  · exact absurd h4 (room (by omega))
  · right; exact ⟨rfl, by omega, by omega, by omega⟩

/-- What a one by one read returns. -/
theorem getOne_at {typ : Typ} {np npmax : Nat} {s : Sol K} (hs : Shape typ np npmax s) (hn : np ≤ npmax)
    (i : Int) (hi : (if s.npi = (np : Int) then 0 else s.npi) + 1 = i) (h0 : 0 ≤ i) :
    getOne s typ = some ({ s with npi := i },
      if i > (np : Int) then none else some fun c => s.m (typ.comps * i.toNat + c)) := by
  unfold getOne
  simp only
  rw [hs.size, hs.np, hs.npmax, hi]
  by_cases h : i > (np : Int)
  · rw [if_pos h, if_pos h]
  · rw [if_neg h, if_neg h, if_neg]
    rintro (h1 | h1)
    · omega
    · exact room (by omega) h1

theorem getOne_keeps {typ : Typ} {s s' : Sol K} {o : Option (Nat → K)} (h : getOne s typ = some (s', o)) :
    s' = { s with npi := s'.npi } := by
  unfold getOne at h
  simp only at h
  split_ifs at h <;> · simp only [Option.some.injEq, Prod.mk.injEq] at h; rw [← h.1]

/-- What the array contains after any history. -/
theorem run_spec [Zero K] (typ : Typ) (np npmax : Nat) (hn : np ≤ npmax) {h : List (Op K)} {s : Sol K}
    (hr : run (fresh typ np npmax) h = some s) :
    Shape typ np npmax s ∧ ∀ pos c, 1 ≤ pos → pos ≤ np → c < typ.comps →
      s.m (typ.comps * pos + c) = lastValue typ.comps np npmax pos c h := by
  induction h generalizing s with
  | nil =>
    simp only [run, Option.some.injEq] at hr
    subst hr
    exact ⟨⟨rfl, rfl, rfl, rfl⟩, fun _ _ _ _ _ => rfl⟩
  | cons op h ih =>
    simp only [run, Option.bind_eq_some_iff] at hr
    obtain ⟨s1, h1, h2⟩ := hr
    obtain ⟨sh, hv⟩ := ih h1
    have key : ∀ v (p : Int) s' b, setOne s1 typ v p = some (s', b) → Shape typ np npmax s' ∧
        ∀ pos c, 1 ≤ pos → pos ≤ np → c < typ.comps → s'.m (typ.comps * pos + c) =
          if p = pos ∧ pos ≤ np ∧ pos < npmax then v c else lastValue typ.comps np npmax pos c h := by
      intro v p s' b he
      rcases setOne_spec sh hn v p with ⟨e, hno⟩ | ⟨e, hp1, hp2, hp3⟩
      · rw [e] at he
        simp only [Option.some.injEq, Prod.mk.injEq] at he
        rw [← he.1]
        refine ⟨sh, ?_⟩
        intro pos c a b' hc
        rw [if_neg (by omega)]
        exact hv pos c a b' hc
      · rw [e] at he
        simp only [Option.some.injEq, Prod.mk.injEq] at he
        rw [← he.1]
        refine ⟨⟨sh.typ, sh.size, sh.np, sh.npmax⟩, ?_⟩
        intro pos c a b' hc
        show puts s1.m _ v _ _ = _
        rw [puts_entry _ _ _ _ _ _ hc]
        by_cases hq : p = pos
        · rw [if_pos (by omega), if_pos (by omega)]
        · rw [if_neg (by omega), if_neg (by omega)]
          exact hv pos c a b' hc
    cases op with
    | setOne v p =>
      simp only [step, sh.typ, Option.map_eq_some_iff, Prod.exists, exists_and_right, exists_eq_right] at h2
      obtain ⟨b, hb⟩ := h2
      exact key v p s b hb
    | setIth v p =>
      simp only [step, setIth, sh.typ] at h2
      have : ∃ b, setOne s1 typ v p = some (s, b) := by
        cases typ
        · simp only [Option.map_eq_some_iff, Prod.exists, exists_and_right, exists_eq_right] at h2
          exact h2
        all_goals
          simp only [Option.map_map, Option.map_eq_some_iff, Prod.exists, Function.comp] at h2
          obtain ⟨a, b, h3, h4⟩ := h2
          exact ⟨b, by rw [h3, h4]⟩
      obtain ⟨b, hb⟩ := this
      exact key v p s b hb
    | setAll v =>
      simp only [step, setAll, sh.typ, sh.np, sh.npmax, sh.size] at h2
      by_cases h0 : np = 0
      · rw [if_pos h0] at h2
        simp only [Option.map_some, Option.some.injEq] at h2
        subst h2
        exact ⟨sh, by intro pos c a b; omega⟩
      · rw [if_neg h0, if_neg (Nat.not_lt.2 (Nat.mul_le_mul_left _ (by omega)))] at h2
        simp only [Option.map_some, Option.some.injEq] at h2
        subst h2
        refine ⟨⟨rfl, rfl, rfl, rfl⟩, ?_⟩
        intro pos c a b hc
        show blockLoop _ _ _ _ _ = _
        rw [blockLoop_entry _ _ _ _ _ _ hc, if_pos ⟨a, b⟩, lastValue, if_pos b]
    | getOne =>
      simp only [step, sh.typ, Option.map_eq_some_iff, Prod.exists, exists_and_right, exists_eq_right] at h2
      obtain ⟨o, ho⟩ := h2
      have := getOne_keeps ho
      rw [this]
      exact ⟨⟨sh.typ, sh.size, sh.np, sh.npmax⟩, hv⟩
    | getIth p =>
      rw [step_getIth sh.typ] at h2
      simp only [Option.map_eq_some_iff, Prod.exists, exists_and_right, exists_eq_right] at h2
      obtain ⟨o, ho⟩ := h2
      have := getOne_keeps ho
      rw [this]
      exact ⟨⟨sh.typ, sh.size, sh.np, sh.npmax⟩, hv⟩

/-- **C27** After any history of calls, every way of reading position `pos` in `1..np` returns the values last
accepted for it: reading by index (the call returns 1), in block, or one by one when the cursor is just before
`pos`. -/
theorem C27_round_trip [Zero K] (typ : Typ) (np npmax : Nat) (hn : np ≤ npmax) {h : List (Op K)} {s : Sol K}
    (hr : run (fresh typ np npmax) h = some s) (pos : Nat) (h1 : 1 ≤ pos) (h2 : pos ≤ np) (b : Nat → K) :
    (∃ s' out, getIth s pos b = some (s', true, out) ∧
      ∀ c, c < typ.comps → out c = lastValue typ.comps np npmax pos c h) ∧
    (∃ out, getAll s typ b = some out ∧
      ∀ c, c < typ.comps → out (typ.comps * (pos - 1) + c) = lastValue typ.comps np npmax pos c h) ∧
    (s.npi = pos - 1 → ∃ s' out, getOne s typ = some (s', some out) ∧ s'.npi = pos ∧
      ∀ c, c < typ.comps → out c = lastValue typ.comps np npmax pos c h) := by
  obtain ⟨sh, hv⟩ := run_spec typ np npmax hn hr
  have hval := fun c hc => hv pos c h1 h2 hc
  have key : ∀ s2 : Sol K, Shape typ np npmax s2 → s2.m = s.m → s2.npi = pos - 1 →
      ∃ s' out, getOne s2 typ = some (s', some out) ∧ s'.npi = pos ∧ ∀ c, c < typ.comps →
        out c = lastValue typ.comps np npmax pos c h := by
    intro s2 sh2 hm hc
    have e := getOne_at sh2 hn pos (by rw [hc, if_neg (by omega)]; omega) (by omega)
    rw [if_neg (by omega)] at e
    refine ⟨_, _, e, rfl, ?_⟩
    intro c hc
    rw [hm]
    simpa using hval c hc
  refine ⟨?_, ?_, ?_⟩
  · obtain ⟨s', out, e, _, ho⟩ := key { s with npi := pos - 1 } ⟨sh.typ, sh.size, sh.np, sh.npmax⟩ rfl rfl
    refine ⟨s', fun c => if c < typ.comps then out c else b c, ?_, ?_⟩
    · rw [getIth_eq sh.typ]; simp only [e, Option.map_some, Option.isSome_some, Bool.true_or, Option.getD_some]
    · intro c hc; simp only; rw [if_pos hc]; exact ho c hc
  · unfold getAll
    rw [sh.size, sh.np, sh.npmax, if_neg]
    · refine ⟨_, rfl, ?_⟩
      intro c hc
      rw [readLoop_entry _ _ _ _ _ _ hc, if_pos (by omega), show pos - 1 + 1 = pos by omega]
      exact hval c hc
    · rintro ⟨hh, _⟩
      exact absurd hh (Nat.not_lt.2 (Nat.mul_le_mul_left _ (by omega)))
  · exact key s sh rfl

/-- **C27** Writes never leave the array, and a write is accepted iff its position is at most `np` and less than
`npmax`; a refused one changes nothing. -/
theorem C27_setting [Zero K] (typ : Typ) (np npmax : Nat) (hn : np ≤ npmax) {h : List (Op K)} {s : Sol K}
    (hr : run (fresh typ np npmax) h = some s) (v : Nat → K) (pos : Int) :
    ∃ s' ok, setOne s typ v pos = some (s', ok) ∧ (ok = true ↔ 1 ≤ pos ∧ pos ≤ np ∧ pos < npmax) ∧
      (ok = false → s' = s) := by
  obtain ⟨sh, _⟩ := run_spec typ np npmax hn hr
  rcases setOne_spec sh hn v pos with ⟨e, hno⟩ | ⟨e, hp⟩
  · exact ⟨s, false, e, by simp only [Bool.false_eq_true, false_iff]; exact hno, fun _ => rfl⟩
  · exact ⟨_, true, e, by simp only [true_iff]; exact hp, fun hc => by cases hc⟩

/-- Histories whose reads by index use positions at least 0 run inside the array. -/
theorem C27_histories_run [Zero K] (typ : Typ) (np npmax : Nat) (hn : np ≤ npmax) (h : List (Op K))
    (hp : ∀ op ∈ h, ∀ pos, op = .getIth pos → 0 ≤ pos) :
    ∃ s, run (fresh typ np npmax) h = some s ∧ 0 ≤ s.npi := by
  induction h with
  | nil => exact ⟨_, rfl, by simp [fresh]⟩
  | cons op h ih =>
    obtain ⟨s, e, hc⟩ := ih (fun o ho => hp o (by simp [ho]))
    obtain ⟨sh, _⟩ := run_spec typ np npmax hn e
    have hst : ∀ v pos, ∃ s' b, setOne s typ v pos = some (s', b) ∧ s'.npi = s.npi := by
      intro v pos
      rcases setOne_spec sh hn v pos with ⟨e, _⟩ | ⟨e, _⟩
      · exact ⟨_, _, e, rfl⟩
      · exact ⟨_, _, e, rfl⟩
    simp only [run, e, Option.bind_some]
    cases op with
    | setOne v pos =>
      obtain ⟨s', b, e, hi⟩ := hst v pos
      exact ⟨s', by simp [step, sh.typ, e], by omega⟩
    | setIth v pos =>
      obtain ⟨s', b, e, hi⟩ := hst v pos
      refine ⟨s', ?_, by omega⟩
      simp only [step, setIth, sh.typ]
      cases typ <;> simp [e]
    | setAll v =>
      simp only [step, setAll, sh.typ, sh.np, sh.npmax, sh.size]
      by_cases h0 : np = 0
      · rw [if_pos h0]; exact ⟨s, rfl, hc⟩
      · rw [if_neg h0, if_neg (Nat.not_lt.2 (Nat.mul_le_mul_left _ (by omega)))]
        exact ⟨_, rfl, hc⟩
    | getOne =>
      have e := getOne_at sh hn _ rfl (by split <;> omega)
      exact ⟨_, by rw [step, sh.typ, e]; rfl, by simp only; split <;> omega⟩
    | getIth pos =>
      have h0 := hp _ (by simp) pos rfl
      have e := getOne_at (s := { s with npi := pos - 1 }) ⟨sh.typ, sh.size, sh.np, sh.npmax⟩ hn _ rfl
        (by simp only; split <;> omega)
      exact ⟨_, by rw [step_getIth sh.typ, e]; rfl, by simp only; split <;> omega⟩

/-! ### Findings -/

/-- Position `np` itself is refused when the array is exactly full (`pos >= npmax` instead of `pos > npmax`). -/
theorem C27_last_position_refused [Zero K] (typ : Typ) (np : Nat) (v : Nat → K) :
    setOne (fresh typ np np) typ v np = some (fresh typ np np, false) := by
  rcases setOne_spec (typ := typ) (np := np) (npmax := np) (s := fresh typ np np) ⟨rfl, rfl, rfl, rfl⟩ (le_refl np) v np with ⟨e, _⟩ | ⟨_, _, _, h⟩
  · exact e
  · omega

/-- Writing a vector or tensor entry by index reports success even when the write is refused. -/
theorem C27_set_ith_ignores_refusal [Zero K] (np npmax : Nat) (hn : np ≤ npmax) (v : Nat → K) (pos : Int)
    (h : (np : Int) < pos) :
    setIth (fresh .tensor np npmax) v pos = some (fresh .tensor np npmax, true) := by
  rcases setOne_spec (typ := .tensor) (np := np) (npmax := npmax) (s := fresh .tensor np npmax)
    ⟨rfl, rfl, rfl, rfl⟩ hn v pos with ⟨e, _⟩ | ⟨_, _, h2, _⟩
  · simp only [setIth, fresh] at e ⊢; rw [e]; rfl
  · omega

/-- Reading by index at position `np+1` succeeds and returns entry 1; at position 0 it returns the unused entry 0;
further away it fails for scalars. -/
theorem C27_get_ith_wraps [Zero K] (np npmax : Nat) (hn : np ≤ npmax) (h1 : 1 ≤ np) {h : List (Op K)} {s : Sol K}
    (hr : run (fresh .scalar np npmax) h = some s) (b : Nat → K) :
    (∃ s' out, getIth s (np + 1) b = some (s', true, out) ∧ out 0 = lastValue 1 np npmax 1 0 h) ∧
    (∃ s' out, getIth s 0 b = some (s', true, out)) ∧
    (∀ pos : Int, np + 1 < pos → ∃ s' out, getIth s pos b = some (s', false, out)) := by
  obtain ⟨sh, hv⟩ := run_spec .scalar np npmax hn hr
  refine ⟨?_, ?_, ?_⟩
  · have e := getOne_at (s := { s with npi := (np : Int) + 1 - 1 }) ⟨sh.typ, sh.size, sh.np, sh.npmax⟩ hn 1
      (by show (if (np : Int) + 1 - 1 = (np : Int) then 0 else (np : Int) + 1 - 1) + 1 = 1; rw [if_pos (by omega)]; rfl)
      (by omega)
    rw [if_neg (by omega)] at e
    refine ⟨_, _, by rw [getIth_eq sh.typ, e]; rfl, ?_⟩
    have := hv 1 0 (le_refl _) h1 (by decide)
    simpa [Typ.comps] using this
  · have e := getOne_at (s := { s with npi := (0 : Int) - 1 }) ⟨sh.typ, sh.size, sh.np, sh.npmax⟩ hn 0
      (by show (if (0 : Int) - 1 = (np : Int) then 0 else (0 : Int) - 1) + 1 = 0; rw [if_neg (by omega)]; rfl)
      (by omega)
    rw [if_neg (by omega)] at e
    exact ⟨_, _, by rw [getIth_eq sh.typ, e]; rfl⟩
  · intro pos hp
    have e := getOne_at (s := { s with npi := pos - 1 }) ⟨sh.typ, sh.size, sh.np, sh.npmax⟩ hn pos
      (by show (if pos - 1 = (np : Int) then 0 else pos - 1) + 1 = pos; rw [if_neg (by omega)]; omega) (by omega)
    rw [if_pos (by omega)] at e
    exact ⟨_, _, by rw [getIth_eq sh.typ, e]; rfl⟩

/-! ### Example -/

/-- Vectors at 3 vertices: writes, a block write, a refused write, reads. -/
def exHist : List (Op ℚ) :=
  [.getOne, .getIth 2, .setOne (fun _ => 9) 4, .setIth (fun c => 10 + c) 3, .setOne (fun c => 20 + c) 2, .getOne,
    .setAll (fun i => 100 + i), .setOne (fun _ => 7) 1]

example : ∃ s s' out, run (fresh .vector 3 5) exHist = some s ∧ getIth s 2 (fun _ => 0) = some (s', true, out) ∧
    out 1 = 21 ∧ lastValue 3 3 5 1 2 exHist = 102 := by
  obtain ⟨s, e, _⟩ := C27_histories_run .vector 3 5 (by decide) exHist (by
    intro op h pos hop; subst hop; simp [exHist] at h; omega)
  obtain ⟨⟨s', out, h1, h2⟩, _⟩ := C27_round_trip .vector 3 5 (by decide) e 2 (by decide) (by decide) (fun _ => 0)
  refine ⟨s, s', out, e, h1, ?_, ?_⟩
  · rw [h2 1 (by decide)]
    simp [exHist, lastValue]
    norm_num
  · simp [exHist, lastValue]
    norm_num

end Mmg.Sol
