/-
Property C28: local parameters.
-/
import Verif.Util
import Mathlib.Order.Basic
import Mathlib.Algebra.Order.Ring.Rat
import Mathlib.Tactic.NormNum

namespace Mmg.Par

set_option linter.unusedSectionVars false

variable {K : Type} [LinearOrder K] [Zero K]

/-! ### Model -/

/-- Values of `enum MMG5_entities` used here (libmmgtypes.h). -/
inductive Ent
  | noentity | vertex | edg | triangle | tetrahedron
  deriving DecidableEq

/-- The three sizes of a local parameter. -/
structure Vals (K : Type) where
  hmin : K
  hmax : K
  hausd : K

/-- `MMG5_Par`. -/
structure Entry (K : Type) where
  elt : Ent
  ref : Int
  vals : Vals K

/-- The fields of `mesh->info` used: announced number, number set, array. -/
structure Info (K : Type) where
  npar : Nat
  npari : Nat
  par : Nat → Entry K

def put {α : Type} (f : Nat → α) (i : Nat) (x : α) : Nat → α := fun j => if j = i then x else f j

/-- The search loop of `MMG3D_Set_localParameter`, API_functions_3d.c:2490-2505: first entry at index at least `k`
(`d` entries left) with the same type and reference. -/
def find (par : Nat → Entry K) (t : Ent) (ref : Int) : Nat → Nat → Option Nat
  | 0, _ => none
  | d + 1, k => if (par k).elt = t ∧ (par k).ref = ref then some k else find par t ref d (k + 1)

/-- `MMG3D_Set_localParameter`, API_functions_3d.c:2444-2531. -/
def setLocal (s : Info K) (t : Ent) (ref : Int) (v : Vals K) : Info K × Bool :=
  if s.npar = 0 then (s, false)
  else if s.npari ≥ s.npar then (s, false)
  else if t ≠ .triangle ∧ t ≠ .tetrahedron then (s, false)
  else if ref < 0 then (s, false)
  else if v.hmin ≤ 0 then (s, false)
  else if v.hmax ≤ 0 then (s, false)
  else if v.hausd ≤ 0 then (s, false)
  else
    match find s.par t ref s.npari 0 with
    | some k => ({ s with par := put s.par k { s.par k with vals := v } }, true)
    | none => ({ s with par := put s.par s.npari ⟨t, ref, v⟩, npari := s.npari + 1 }, true)

/-- `MMG3D_Set_iparameter` with `MMG3D_IPARAM_numberOfLocalParam`, API_functions_3d.c:2222-2248; `v` are the
global values copied in every entry. -/
def setNumber (n : Nat) (v : Vals K) : Info K := ⟨n, 0, fun _ => ⟨.noentity, 9223372036854775807, v⟩⟩

/-- Calls. -/
inductive Op (K : Type)
  | number (n : Nat) (v : Vals K)
  | local (t : Ent) (ref : Int) (v : Vals K)

def step (s : Info K) : Op K → Info K
  | .number n v => setNumber n v
  | .local t ref v => (setLocal s t ref v).1

/-- The state after a history, most recent call first. -/
def run (s : Info K) : List (Op K) → Info K
  | [] => s
  | op :: h => step (run s h) op

/-! ### Specification: a finite map with a capacity, built from the list of calls only -/

/-- What the parameters should be: a map and the number of its keys. -/
structure Spec (K : Type) where
  cap : Nat
  count : Nat
  val : Ent → Int → Option (Vals K)

/-- A setting is well formed. -/
def Valid (t : Ent) (ref : Int) (v : Vals K) : Prop :=
  (t = .triangle ∨ t = .tetrahedron) ∧ 0 ≤ ref ∧ 0 < v.hmin ∧ 0 < v.hmax ∧ 0 < v.hausd

open Classical in
/-- The specification of one call. -/
noncomputable def specStep (s : Spec K) : Op K → Spec K
  | .number n _ => ⟨n, 0, fun _ _ => none⟩
  | .local t ref v =>
    if s.count < s.cap ∧ Valid t ref v then
      { s with
        count := if (s.val t ref).isSome then s.count else s.count + 1
        val := fun t' r' => if t' = t ∧ r' = ref then some v else s.val t' r' }
    else s

noncomputable def specRun : List (Op K) → Spec K
  | [] => ⟨0, 0, fun _ _ => none⟩
  | op :: h => specStep (specRun h) op

/-! ### Proofs -/

theorem find_some {par : Nat → Entry K} {t : Ent} {ref : Int} {d k j : Nat} (h : find par t ref d k = some j) :
    k ≤ j ∧ j < k + d ∧ (par j).elt = t ∧ (par j).ref = ref := by
  induction d generalizing k with
  | zero => simp [find] at h
  | succ d ih =>
    simp only [find] at h
    split at h
    · next hc =>
      simp only [Option.some.injEq] at h
      subst h
      exact ⟨le_refl _, by omega, hc⟩
    · have := ih h
      exact ⟨by omega, by omega, this.2.2⟩

theorem find_none {par : Nat → Entry K} {t : Ent} {ref : Int} {d k : Nat} (h : find par t ref d k = none) :
    ∀ j, k ≤ j → j < k + d → ¬ ((par j).elt = t ∧ (par j).ref = ref) := by
  induction d generalizing k with
  | zero => intro j a b; omega
  | succ d ih =>
    simp only [find] at h
    split at h
    · cases h
    · next hc =>
      intro j a b
      by_cases e : j = k
      · subst e; exact hc
      · exact ih h j (by omega) (by omega)

/-- The table represents the map: each used entry is the value of its key, each key with a value has exactly one
entry. -/
structure Rep (s : Info K) (a : Spec K) : Prop where
  cap : s.npar = a.cap
  count : s.npari = a.count
  room : s.npari ≤ s.npar
  val : ∀ k, k < s.npari → a.val (s.par k).elt (s.par k).ref = some (s.par k).vals
  key : ∀ t r v, a.val t r = some v → ∃ k, k < s.npari ∧ (s.par k).elt = t ∧ (s.par k).ref = r
  one : ∀ k l, k < s.npari → l < s.npari → (s.par k).elt = (s.par l).elt → (s.par k).ref = (s.par l).ref → k = l

theorem setLocal_valid {s : Info K} {t : Ent} {ref : Int} {v : Vals K} (hr : s.npari ≤ s.npar) :
    (¬ (s.npari < s.npar ∧ Valid t ref v) ∧ setLocal s t ref v = (s, false)) ∨
    ((s.npari < s.npar ∧ Valid t ref v) ∧ setLocal s t ref v = match find s.par t ref s.npari 0 with
      | some k => ({ s with par := put s.par k { s.par k with vals := v } }, true)
      | none => ({ s with par := put s.par s.npari ⟨t, ref, v⟩, npari := s.npari + 1 }, true)) := by
  unfold setLocal Valid
  split_ifs with h0 h1 h2 h3 h4 h5 h6
  · left; exact ⟨by rintro ⟨h, _⟩; omega, rfl⟩
  · left; exact ⟨by rintro ⟨h, _⟩; omega, rfl⟩
  · left; refine ⟨?_, rfl⟩; rintro ⟨_, h, _⟩; rcases h with h | h <;> simp [h] at h2
  · left; exact ⟨by rintro ⟨_, _, h, _⟩; omega, rfl⟩
  · left; exact ⟨by rintro ⟨_, _, _, h, _⟩; exact absurd h4 (not_le.2 h), rfl⟩
  · left; exact ⟨by rintro ⟨_, _, _, _, h, _⟩; exact absurd h5 (not_le.2 h), rfl⟩
  · left; exact ⟨by rintro ⟨_, _, _, _, _, h⟩; exact absurd h6 (not_le.2 h), rfl⟩
  · right
    refine ⟨⟨by omega, ?_, by omega, not_le.1 h4, not_le.1 h5, not_le.1 h6⟩, rfl⟩
    by_contra hc
    rw [not_or] at hc
    exact h2 hc

theorem rep_step {s : Info K} {a : Spec K} (R : Rep s a) (op : Op K) : Rep (step s op) (specStep a op) := by
  cases op with
  | number n v =>
    exact ⟨rfl, rfl, Nat.zero_le _, by intro k h; simp [step, setNumber] at h, by intro t r v h; simp [specStep] at h,
      by intro k l h; simp [step, setNumber] at h⟩
  | «local» t ref v =>
    simp only [step, specStep]
    rcases setLocal_valid (s := s) (t := t) (ref := ref) (v := v) R.room with ⟨hno, e⟩ | ⟨hyes, e⟩
    · rw [e, if_neg (by rw [← R.cap, ← R.count]; exact hno)]
      exact R
    · rw [e, if_pos (by rw [← R.cap, ← R.count]; exact hyes)]
      cases hf : find s.par t ref s.npari 0 with
      | some j =>
        obtain ⟨_, hj, e1, e2⟩ := find_some hf
        have hsome : (a.val t ref).isSome := by
          have := R.val j (by omega); rw [e1, e2] at this; rw [this]; rfl
        have hput : ∀ k, (put s.par j { s.par j with vals := v } k).elt = (s.par k).elt ∧
            (put s.par j { s.par j with vals := v } k).ref = (s.par k).ref := by
          intro k; unfold put; split
          · next e => subst e; exact ⟨rfl, rfl⟩
          · exact ⟨rfl, rfl⟩
        refine ⟨R.cap, by simp only [hsome, if_true]; exact R.count, R.room, ?_, ?_, ?_⟩
        · intro k hk
          simp only at hk ⊢
          rw [(hput k).1, (hput k).2]
          by_cases ek : k = j
          · subst ek; rw [if_pos ⟨e1, e2⟩]; simp [put]
          · rw [if_neg]
            · simp only [put, if_neg ek]; exact R.val k hk
            · rintro ⟨h1, h2⟩; exact ek (R.one k j hk (by omega) (h1.trans e1.symm) (h2.trans e2.symm))
        · intro t' r' v' h
          simp only at h ⊢
          split at h
          · next hc =>
            exact ⟨j, by omega, (hput j).1.trans (e1.trans hc.1.symm), (hput j).2.trans (e2.trans hc.2.symm)⟩
          · obtain ⟨k, hk, h1, h2⟩ := R.key t' r' v' h
            exact ⟨k, hk, (hput k).1.trans h1, (hput k).2.trans h2⟩
        · intro k l hk hl h1 h2
          simp only [(hput k).1, (hput l).1, (hput k).2, (hput l).2] at h1 h2
          exact R.one k l hk hl h1 h2
      | none =>
        have hn := find_none hf
        have hnone : a.val t ref = none := by
          cases hv : a.val t ref with
          | none => rfl
          | some w =>
            obtain ⟨k, hk, h1, h2⟩ := R.key t ref w hv
            exact absurd ⟨h1, h2⟩ (hn k (by omega) (by omega))
        have hput : ∀ k, k ≠ s.npari → put s.par s.npari ⟨t, ref, v⟩ k = s.par k := by
          intro k hk; simp [put, hk]
        have hself : put s.par s.npari ⟨t, ref, v⟩ s.npari = ⟨t, ref, v⟩ := by simp [put]
        refine ⟨R.cap, by simp only [hnone, Option.isSome_none, Bool.false_eq_true, if_false]; rw [R.count],
          by simp only; omega, ?_, ?_, ?_⟩
        · intro k hk
          simp only at hk ⊢
          by_cases ek : k = s.npari
          · subst ek; rw [hself, if_pos ⟨rfl, rfl⟩]
          · rw [hput k ek, if_neg (hn k (by omega) (by omega))]
            exact R.val k (by omega)
        · intro t' r' v' h
          simp only at h ⊢
          split at h
          · next hc => exact ⟨s.npari, by omega, by rw [hself]; exact hc.1.symm, by rw [hself]; exact hc.2.symm⟩
          · obtain ⟨k, hk, h1, h2⟩ := R.key t' r' v' h
            exact ⟨k, by omega, by rw [hput k (by omega)]; exact h1, by rw [hput k (by omega)]; exact h2⟩
        · intro k l hk hl h1 h2
          simp only at hk hl h1 h2
          by_cases ek : k = s.npari <;> by_cases el : l = s.npari
          · omega
          · rw [ek, hself, hput l el] at h1 h2
            exact absurd ⟨h1.symm, h2.symm⟩ (hn l (by omega) (by omega))
          · rw [el, hself, hput k ek] at h1 h2
            exact absurd ⟨h1, h2⟩ (hn k (by omega) (by omega))
          · rw [hput k ek, hput l el] at h1 h2
            exact R.one k l (by omega) (by omega) h1 h2

/-- The state before any call: nothing announced. -/
def initial (v : Vals K) : Info K := setNumber 0 v

theorem rep_run (v : Vals K) (h : List (Op K)) : Rep (run (initial v) h) (specRun h) := by
  induction h with
  | nil =>
    exact ⟨rfl, rfl, le_refl _, by intro k h; simp [run, initial, setNumber] at h,
      by intro t r v h; simp [specRun] at h, by intro k l h; simp [run, initial, setNumber] at h⟩
  | cons op h ih => exact rep_step ih op

/-- **C28** After any history, the entry of a pair (type, reference), if there is one, holds the last accepted
values; there is one iff a setting was accepted since the number was announced; and it is unique. -/
theorem C28_last_value_wins (g : Vals K) (h : List (Op K)) (t : Ent) (ref : Int) (v : Vals K) :
    ((specRun h).val t ref = some v ↔
      ∃ k, k < (run (initial g) h).npari ∧ (run (initial g) h).par k = ⟨t, ref, v⟩) ∧
    (∀ k l, k < (run (initial g) h).npari → l < (run (initial g) h).npari →
      ((run (initial g) h).par k).elt = ((run (initial g) h).par l).elt →
      ((run (initial g) h).par k).ref = ((run (initial g) h).par l).ref → k = l) := by
  have R := rep_run g h
  refine ⟨?_, R.one⟩
  constructor
  · intro hv
    obtain ⟨k, hk, h1, h2⟩ := R.key t ref v hv
    refine ⟨k, hk, ?_⟩
    have := R.val k hk
    rw [h1, h2, hv] at this
    cases he : (run (initial g) h).par k
    rw [he] at h1 h2 this
    simp only [Option.some.injEq] at h1 h2 this
    subst h1 h2 this
    rfl
  · rintro ⟨k, hk, e⟩
    have := R.val k hk
    rw [e] at this
    exact this

/-- **C28** A setting is accepted iff it is well formed and fewer pairs than announced have been set; a refused one
changes nothing. The number of entries is the number of distinct accepted pairs and never exceeds the announced
one. -/
theorem C28_acceptance (g : Vals K) (h : List (Op K)) (t : Ent) (ref : Int) (v : Vals K) :
    ((setLocal (run (initial g) h) t ref v).2 = true ↔ (specRun h).count < (specRun h).cap ∧ Valid t ref v) ∧
    ((setLocal (run (initial g) h) t ref v).2 = false →
      (setLocal (run (initial g) h) t ref v).1 = run (initial g) h) ∧
    (run (initial g) h).npari = (specRun h).count ∧ (specRun h).count ≤ (specRun h).cap := by
  have R := rep_run g h
  refine ⟨?_, ?_, R.count, by rw [← R.count, ← R.cap]; exact R.room⟩
  · rw [← R.count, ← R.cap]
    rcases setLocal_valid (s := run (initial g) h) (t := t) (ref := ref) (v := v) R.room with ⟨hno, e⟩ | ⟨hyes, e⟩
    · rw [e]; simp only [Bool.false_eq_true, false_iff]; exact hno
    · rw [e]; simp only [hyes, and_self, iff_true]; split <;> rfl
  · rcases setLocal_valid (s := run (initial g) h) (t := t) (ref := ref) (v := v) R.room with ⟨hno, e⟩ | ⟨hyes, e⟩
    · rw [e]; intro _; rfl
    · rw [e]; split <;> intro hc <;> cases hc

/-- Once the announced number of pairs is set, even a new value for a pair already present is refused. -/
theorem C28_full_table_frozen (g : Vals K) (h : List (Op K)) (hfull : (specRun h).count = (specRun h).cap) (t : Ent)
    (ref : Int) (v : Vals K) :
    setLocal (run (initial g) h) t ref v = (run (initial g) h, false) := by
  have R := rep_run g h
  rcases setLocal_valid (s := run (initial g) h) (t := t) (ref := ref) (v := v) R.room with ⟨_, e⟩ | ⟨hyes, e⟩
  · exact e
  · have := R.count; have := R.cap; omega

/-! ### Example -/

/-- Two pairs, one of them set twice; then a third value for it is refused because the table is full. -/
def exHist : List (Op ℚ) :=
  [.local .triangle 5 ⟨9, 9, 9⟩, .local .tetrahedron 5 ⟨3, 4, 5⟩, .local .triangle 5 ⟨2, 3, 4⟩,
    .local .triangle 5 ⟨1, 2, 3⟩, .number 2 ⟨1, 1, 1⟩]

example : (specRun exHist).val .triangle 5 = some ⟨2, 3, 4⟩ ∧ (specRun exHist).val .tetrahedron 5 = some ⟨3, 4, 5⟩ ∧
    (specRun exHist).count = 2 ∧ (specRun exHist).cap = 2 := by
  have v1 : Valid (K := ℚ) .triangle 5 ⟨1, 2, 3⟩ := by simp [Valid]
  have v2 : Valid (K := ℚ) .triangle 5 ⟨2, 3, 4⟩ := by simp [Valid]
  have v3 : Valid (K := ℚ) .tetrahedron 5 ⟨3, 4, 5⟩ := by simp [Valid]
  simp [exHist, specRun, specStep, v1, v2, v3]

end Mmg.Par
