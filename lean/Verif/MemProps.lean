/-
Property C18: the memory accounting macros of common/mmgcommon_private.h:213-429
(`MMG5_CHK_MEM`, `mycalloc`/`myrealloc`/`myfree` with their stored block size, `MMG5_DEL_MEM`,
`MMG5_ADD_MEM`, `MMG5_SAFE_CALLOC`, `MMG5_SAFE_RECALLOC`, `MMG5_TAB_RECALLOC`).

`size_t` arithmetic is modulo `W` (2^64 in the C code); the system allocator may refuse any request
(flag `sys`). Blocks are identified by a name (the C pointer variable).
-/
import Mathlib.Data.List.Basic

namespace Mmg.Mem

/-! ### Model -/

structure State where
  cur : Nat
  max : Nat
  /-- live blocks: name and the size stored in front of the block -/
  blocks : List (Nat × Nat)

/-- `a + b` and `a - b` on `size_t`. -/
def uadd (W a b : Nat) : Nat := (a + b) % W
def usub (W a b : Nat) : Nat := (a + (W - b % W)) % W

/-- `MMG5_ADD_MEM` with `MMG5_CHK_MEM` (mmgcommon_private.h:215-225, 302-306). -/
def addMem (W : Nat) (s : State) (size : Nat) : State × Bool :=
  let c := uadd W s.cur size
  if s.max < c then ({ s with cur := usub W c size }, false)
  else ({ s with cur := c }, true)

/-- Size of block `id` (`none`: NULL pointer). -/
def find (bs : List (Nat × Nat)) (id : Nat) : Option Nat := (bs.find? (fun b => b.1 == id)).map (·.2)

def remove (bs : List (Nat × Nat)) (id : Nat) : List (Nat × Nat) := bs.filter (fun b => b.1 != id)

/-- `MMG5_ADD_MEM` followed by `MMG5_SAFE_CALLOC` / `MMG5_SAFE_MALLOC` (lines 302-335). If the
system refuses, the counter keeps the added size. -/
def alloc (W : Nat) (s : State) (id size : Nat) (sys : Bool) : State × Bool :=
  match addMem W s size with
  | (s', false) => (s', false)
  | (s', true) => if sys then ({ s' with blocks := (id, size) :: s'.blocks }, true) else (s', false)

/-- `MMG5_DEL_MEM` (lines 281-299): NULL gives size 0. -/
def free (W : Nat) (s : State) (id : Nat) : State :=
  match find s.blocks id with
  | none => { s with cur := usub W s.cur 0 }
  | some z => { s with cur := usub W s.cur z, blocks := remove s.blocks id }

/-- The gap chosen by `MMG5_TAB_RECALLOC` (lines 409-423): the wanted gap, or 1, or what fits;
`none` when not even one item fits. `t` is `sizeof(type)`. -/
def gapOf (W : Nat) (s : State) (w t : Nat) : Option Nat :=
  let gap := if w = 0 then 1 else w
  if s.max < uadd W s.cur (gap * t % W) then
    let gap := usub W s.max s.cur / t
    if gap < 1 then none else some gap
  else some gap

/-- `MMG5_TAB_RECALLOC` (lines 405-428): on a refusal of the system the old block is freed without
updating the counter (`MMG5_SAFE_RECALLOC`, lines 383-402). -/
def grow (W : Nat) (s : State) (id w t : Nat) (sys : Bool) : State × Bool :=
  match gapOf W s w t with
  | none => (s, false)
  | some gap =>
    match addMem W s (gap * t % W) with
    | (s', false) => (s', false)
    | (s', true) =>
      if sys then
        ({ s' with blocks := (id, (find s'.blocks id).getD 0 + gap * t) :: remove s'.blocks id }, true)
      else ({ s' with blocks := remove s'.blocks id }, false)

inductive Op where
  | alloc (id size : Nat) (sys : Bool)
  | grow (id w t : Nat) (sys : Bool)
  | free (id : Nat)

def step (W : Nat) (s : State) : Op → State × Bool
  | .alloc id size sys => alloc W s id size sys
  | .grow id w t sys => grow W s id w t sys
  | .free id => (free W s id, true)

/-! ### Specification -/

/-- Bytes held by the live blocks. -/
def liveBytes (s : State) : Nat := (s.blocks.map (·.2)).sum

/-- The system allocator grants the request. -/
def Op.sysOk : Op → Bool
  | .alloc _ _ sys => sys
  | .grow _ _ _ sys => sys
  | .free _ => true

/-- What the callers ensure: allocation in a NULL pointer, growth of a live table with items of
positive size, and requests that do not wrap around `size_t`. -/
def Legal (W : Nat) (s : State) : Op → Prop
  | .alloc id size _ => find s.blocks id = none ∧ s.max + size < W
  | .grow id w t _ => find s.blocks id ≠ none ∧ 1 ≤ t ∧ s.max + (if w = 0 then 1 else w) * t < W
  | .free _ => True

instance (W : Nat) (s : State) (o : Op) : Decidable (Legal W s o) := by
  cases o <;> unfold Legal <;> infer_instance

/-- Reachable states; the flag tells that the system allocator never refused a request. -/
inductive Reach (W max : Nat) : State → Bool → Prop
  | init : Reach W max ⟨0, max, []⟩ true
  | step {s b} (o : Op) (h : Reach W max s b) (hl : Legal W s o) :
      Reach W max (step W s o).1 (b && o.sysOk)

/-! ### Proofs -/

theorem uadd_eq {W a b : Nat} (h : a + b < W) : uadd W a b = a + b := Nat.mod_eq_of_lt h

theorem usub_eq {W a b : Nat} (h : b ≤ a) (ha : a < W) : usub W a b = a - b := by
  unfold usub
  have hb : b % W = b := Nat.mod_eq_of_lt (by omega)
  rw [hb]
  have : a + (W - b) = (a - b) + W := by omega
  rw [this, Nat.add_mod_right, Nat.mod_eq_of_lt (by omega)]

theorem addMem_spec {W : Nat} {s : State} {size : Nat} (h1 : s.cur ≤ s.max) (h2 : s.max + size < W) :
    addMem W s size = if s.cur + size ≤ s.max then ({ s with cur := s.cur + size }, true) else (s, false) := by
  unfold addMem
  simp only [uadd_eq (show s.cur + size < W by omega)]
  by_cases h : s.cur + size ≤ s.max
  · rw [if_neg (by omega), if_pos h]
  · rw [if_pos (by omega), if_neg h, usub_eq (by omega) (by omega)]
    have : s.cur + size - size = s.cur := by omega
    rw [this]

theorem find_cons (b : Nat × Nat) (bs : List (Nat × Nat)) (id : Nat) :
    find (b :: bs) id = if b.1 = id then some b.2 else find bs id := by
  unfold find
  by_cases h : b.1 = id
  · simp [h]
  · simp [h]

theorem remove_cons (b : Nat × Nat) (bs : List (Nat × Nat)) (id : Nat) :
    remove (b :: bs) id = if b.1 = id then remove bs id else b :: remove bs id := by
  unfold remove
  by_cases h : b.1 = id
  · simp [h]
  · simp [h]

theorem remove_none {bs : List (Nat × Nat)} {id : Nat} (h : find bs id = none) : remove bs id = bs := by
  induction bs with
  | nil => rfl
  | cons b bs ih =>
    rw [find_cons] at h
    split at h
    · simp at h
    · rename_i hb
      rw [remove_cons, if_neg hb, ih h]

theorem find_remove (bs : List (Nat × Nat)) (id id' : Nat) :
    find (remove bs id) id' = if id' = id then none else find bs id' := by
  induction bs with
  | nil => simp [find, remove]
  | cons b bs ih =>
    rw [remove_cons, find_cons]
    by_cases h : b.1 = id
    · rw [if_pos h, ih]
      by_cases h' : id' = id
      · simp [h']
      · have : ¬ b.1 = id' := by omega
        simp [h', this]
    · rw [if_neg h, find_cons, ih]
      by_cases h' : id' = id
      · have : ¬ b.1 = id' := by omega
        simp [h', h]
      · by_cases h'' : b.1 = id' <;> simp [h', h'']

/-- No two blocks with the same name. -/
def Distinct (bs : List (Nat × Nat)) : Prop := (bs.map (·.1)).Nodup

theorem find_eq_none_iff (bs : List (Nat × Nat)) (id : Nat) : find bs id = none ↔ id ∉ bs.map (·.1) := by
  induction bs with
  | nil => simp [find]
  | cons b bs ih =>
    rw [find_cons]
    by_cases h : b.1 = id
    · simp [h]
    · have h' : ¬ id = b.1 := fun e => h e.symm
      rw [if_neg h, ih]
      simp only [List.map_cons, List.mem_cons, not_or]
      exact ⟨fun x => ⟨h', x⟩, fun x => x.2⟩

theorem distinct_remove {bs : List (Nat × Nat)} {id : Nat} (h : Distinct bs) : Distinct (remove bs id) := by
  unfold Distinct at *
  exact List.Nodup.sublist (List.Sublist.map _ List.filter_sublist) h

theorem sum_remove {bs : List (Nat × Nat)} {id z : Nat} (h : Distinct bs) (hf : find bs id = some z) :
    ((remove bs id).map (·.2)).sum + z = (bs.map (·.2)).sum := by
  induction bs with
  | nil => simp [find] at hf
  | cons b bs ih =>
    rw [find_cons] at hf
    have hd := List.nodup_cons.1 h
    rw [remove_cons]
    split at hf
    · rename_i hb
      simp at hf
      have : find bs id = none := by rw [find_eq_none_iff, ← hb]; exact hd.1
      rw [if_pos hb, remove_none this, List.map_cons, List.sum_cons]; omega
    · rename_i hb
      rw [if_neg hb, List.map_cons, List.map_cons, List.sum_cons, List.sum_cons]
      have := ih hd.2 hf; omega

structure Inv (W max : Nat) (s : State) (b : Bool) : Prop where
  max_eq : s.max = max
  le : s.cur ≤ s.max
  lt : s.max < W
  distinct : Distinct s.blocks
  sum_le : liveBytes s ≤ s.cur
  sum_eq : b = true → liveBytes s = s.cur

theorem gapOf_spec {W : Nat} {s : State} {w t : Nat} (h1 : s.cur ≤ s.max) (_ht : 1 ≤ t)
    (h2 : s.max + (if w = 0 then 1 else w) * t < W) :
    gapOf W s w t =
      if s.cur + (if w = 0 then 1 else w) * t ≤ s.max then some (if w = 0 then 1 else w)
      else if (s.max - s.cur) / t < 1 then none else some ((s.max - s.cur) / t) := by
  unfold gapOf
  simp only []
  generalize (if w = 0 then 1 else w) = g at *
  have hm : g * t % W = g * t := Nat.mod_eq_of_lt (by omega)
  rw [hm, uadd_eq (by omega), usub_eq h1 (by omega)]
  by_cases h : s.cur + g * t ≤ s.max
  · rw [if_neg (by omega), if_pos h]
  · rw [if_pos (by omega), if_neg h]

theorem grow_spec {W max : Nat} {s : State} {b : Bool} (I : Inv W max s b) {id w t : Nat} (sys : Bool)
    (hl : Legal W s (.grow id w t sys)) :
    (grow W s id w t sys = (s, false) ∧ s.max < s.cur + t) ∨
    ∃ z gap, find s.blocks id = some z ∧ 1 ≤ gap ∧ gap ≤ (if w = 0 then 1 else w) ∧
      s.cur + gap * t ≤ s.max ∧
      grow W s id w t sys =
        if sys then ({ s with cur := s.cur + gap * t, blocks := (id, z + gap * t) :: remove s.blocks id }, true)
        else ({ s with cur := s.cur + gap * t, blocks := remove s.blocks id }, false) := by
  obtain ⟨l1, l2, l3⟩ := hl
  obtain ⟨z, hz⟩ := Option.ne_none_iff_exists'.1 l1
  have hle := I.le
  unfold grow
  rw [gapOf_spec hle l2 l3]
  have hfin : ∀ gap, 1 ≤ gap → gap ≤ (if w = 0 then 1 else w) → s.cur + gap * t ≤ s.max →
      (match addMem W s (gap * t % W) with
      | (s', false) => (s', false)
      | (s', true) =>
        if sys then
          ({ s' with blocks := (id, (find s'.blocks id).getD 0 + gap * t) :: remove s'.blocks id }, true)
        else ({ s' with blocks := remove s'.blocks id }, false)) =
      if sys then ({ s with cur := s.cur + gap * t, blocks := (id, z + gap * t) :: remove s.blocks id }, true)
        else ({ s with cur := s.cur + gap * t, blocks := remove s.blocks id }, false) := by
    intro gap h1 h2 h3
    have hlt : gap * t ≤ (if w = 0 then 1 else w) * t := Nat.mul_le_mul_right t h2
    have hm : gap * t % W = gap * t := Nat.mod_eq_of_lt (by omega)
    rw [hm, addMem_spec hle (by omega), if_pos h3]
    simp only [hz, Option.getD_some]
  have hg1 : 1 ≤ (if w = 0 then 1 else w) := by split <;> omega
  by_cases h : s.cur + (if w = 0 then 1 else w) * t ≤ s.max
  · rw [if_pos h]
    exact Or.inr ⟨z, _, hz, hg1, Nat.le_refl _, h, hfin _ hg1 (Nat.le_refl _) h⟩
  · rw [if_neg h]
    by_cases h' : (s.max - s.cur) / t < 1
    · left
      rw [if_pos h']
      refine ⟨rfl, ?_⟩
      have : (s.max - s.cur) / t = 0 := Nat.lt_one_iff.1 h'
      rw [Nat.div_eq_zero_iff] at this
      omega
    · right
      rw [if_neg h']
      have hdm : (s.max - s.cur) / t * t ≤ s.max - s.cur := Nat.div_mul_le_self _ _
      have hfit : s.cur + (s.max - s.cur) / t * t ≤ s.max := by omega
      have hlew : (s.max - s.cur) / t ≤ (if w = 0 then 1 else w) := by
        by_contra hc
        have : (if w = 0 then 1 else w) * t ≤ (s.max - s.cur) / t * t :=
          Nat.mul_le_mul_right t (by omega)
        omega
      exact ⟨z, _, hz, by omega, hlew, hfit, hfin _ (by omega) hlew hfit⟩

theorem step_inv {W max : Nat} {s : State} {b : Bool} (I : Inv W max s b) (o : Op) (hl : Legal W s o) :
    Inv W max (step W s o).1 (b && o.sysOk) := by
  have hle := I.le
  have hlt := I.lt
  have hsum := I.sum_le
  cases o with
  | alloc id size sys =>
    obtain ⟨l1, l2⟩ := hl
    show Inv W max (alloc W s id size sys).1 _
    unfold alloc
    rw [addMem_spec hle l2]
    by_cases h : s.cur + size ≤ s.max
    · rw [if_pos h]
      cases sys with
      | true =>
        simp only [if_true]
        refine ⟨I.max_eq, h, hlt, ?_, ?_, ?_⟩
        · exact List.nodup_cons.2 ⟨(find_eq_none_iff _ _).1 l1, I.distinct⟩
        · show (((id, size) :: s.blocks).map (·.2)).sum ≤ s.cur + size
          rw [List.map_cons, List.sum_cons]
          have : (s.blocks.map (·.2)).sum ≤ s.cur := hsum
          simp only []
          omega
        · intro hb
          have hb' : b = true := by simpa [Op.sysOk] using hb
          show (((id, size) :: s.blocks).map (·.2)).sum = s.cur + size
          rw [List.map_cons, List.sum_cons]
          have : (s.blocks.map (·.2)).sum = s.cur := I.sum_eq hb'
          simp only []
          omega
      | false =>
        refine ⟨I.max_eq, h, hlt, I.distinct, ?_, ?_⟩
        · show liveBytes s ≤ s.cur + size; omega
        · intro hb; simp [Op.sysOk] at hb
    · rw [if_neg h]
      refine ⟨I.max_eq, hle, hlt, I.distinct, hsum, ?_⟩
      intro hb
      have hb' : b = true := by
        cases b with
        | true => rfl
        | false => simp at hb
      exact I.sum_eq hb'
  | grow id w t sys =>
    show Inv W max (grow W s id w t sys).1 _
    rcases grow_spec I sys hl with ⟨h, _⟩ | ⟨z, gap, h1, h2, h3, h4, h5⟩
    · rw [h]
      refine ⟨I.max_eq, hle, hlt, I.distinct, hsum, ?_⟩
      intro hb
      have hb' : b = true := by
        cases b with
        | true => rfl
        | false => simp at hb
      exact I.sum_eq hb'
    · rw [h5]
      have hs := sum_remove I.distinct h1
      have hsum' : (s.blocks.map (·.2)).sum ≤ s.cur := hsum
      cases sys with
      | true =>
        simp only [if_true]
        refine ⟨I.max_eq, h4, hlt, ?_, ?_, ?_⟩
        · refine List.nodup_cons.2 ⟨?_, distinct_remove I.distinct⟩
          have := (find_eq_none_iff (remove s.blocks id) id).1 (by rw [find_remove]; simp)
          exact this
        · show (((id, z + gap * t) :: remove s.blocks id).map (·.2)).sum ≤ s.cur + gap * t
          rw [List.map_cons, List.sum_cons]
          simp only []
          omega
        · intro hb
          have hb' : b = true := by simpa [Op.sysOk] using hb
          show (((id, z + gap * t) :: remove s.blocks id).map (·.2)).sum = s.cur + gap * t
          rw [List.map_cons, List.sum_cons]
          have : (s.blocks.map (·.2)).sum = s.cur := I.sum_eq hb'
          simp only []
          omega
      | false =>
        refine ⟨I.max_eq, h4, hlt, distinct_remove I.distinct, ?_, ?_⟩
        · show ((remove s.blocks id).map (·.2)).sum ≤ s.cur + gap * t
          omega
        · intro hb; simp [Op.sysOk] at hb
  | free id =>
    show Inv W max (free W s id) _
    unfold free
    cases hf : find s.blocks id with
    | none =>
      simp only []
      rw [usub_eq (by omega) (by omega)]
      refine ⟨I.max_eq, ?_, hlt, I.distinct, ?_, ?_⟩
      · show s.cur - 0 ≤ s.max; omega
      · show liveBytes s ≤ s.cur - 0; omega
      · intro hb
        have hb' : b = true := by simpa [Op.sysOk] using hb
        show liveBytes s = s.cur - 0
        have := I.sum_eq hb'; omega
    | some z =>
      simp only []
      have hs := sum_remove I.distinct hf
      have hsum' : (s.blocks.map (·.2)).sum ≤ s.cur := hsum
      rw [usub_eq (by omega) (by omega)]
      refine ⟨I.max_eq, ?_, hlt, distinct_remove I.distinct, ?_, ?_⟩
      · show s.cur - z ≤ s.max; omega
      · show ((remove s.blocks id).map (·.2)).sum ≤ s.cur - z; omega
      · intro hb
        have hb' : b = true := by simpa [Op.sysOk] using hb
        show ((remove s.blocks id).map (·.2)).sum = s.cur - z
        have : (s.blocks.map (·.2)).sum = s.cur := I.sum_eq hb'
        omega

theorem Reach.inv {W max : Nat} (hW : max < W) {s : State} {b : Bool} (h : Reach W max s b) :
    Inv W max s b := by
  induction h with
  | init => exact ⟨rfl, Nat.zero_le _, hW, List.nodup_nil, Nat.le_refl _, fun _ => rfl⟩
  | step o _ hl ih => exact step_inv ih o hl

/-! ### C18 -/

/-- **C18.** For any history of legal operations: the counter never exceeds the limit and is at
least the number of bytes held by live blocks; it is equal to it as long as the system allocator
never refused a request (so no release can underflow). An allocation succeeds iff it fits under
the limit and the system grants it; a request refused by the limit leaves the state unchanged.
A growth is refused by the limit only if not even one item fits, and otherwise adds at least one
and at most the wanted number of items. -/
theorem C18_memory_accounting {W max : Nat} (hW : max < W) {s : State} {b : Bool}
    (h : Reach W max s b) :
    s.cur ≤ max ∧ liveBytes s ≤ s.cur ∧ (b = true → s.cur = liveBytes s) ∧
    (∀ id size sys, Legal W s (.alloc id size sys) →
      ((step W s (.alloc id size sys)).2 = true ↔ s.cur + size ≤ max ∧ sys = true) ∧
      (¬ s.cur + size ≤ max → (step W s (.alloc id size sys)).1 = s)) ∧
    (∀ id w t sys, Legal W s (.grow id w t sys) →
      ((step W s (.grow id w t sys)).2 = true ↔ s.cur + t ≤ max ∧ sys = true) ∧
      (¬ s.cur + t ≤ max → (step W s (.grow id w t sys)).1 = s) ∧
      ((step W s (.grow id w t sys)).2 = true → ∃ z gap, find s.blocks id = some z ∧ 1 ≤ gap ∧
        gap ≤ (if w = 0 then 1 else w) ∧
        find (step W s (.grow id w t sys)).1.blocks id = some (z + gap * t))) ∧
    (∀ id z, find s.blocks id = some z → z ≤ s.cur ∧ (step W s (.free id)).1.cur = s.cur - z ∧
      find (step W s (.free id)).1.blocks id = none ∧
      ∀ id', id' ≠ id → find (step W s (.free id)).1.blocks id' = find s.blocks id') := by
  have I := h.inv hW
  have hmax := I.max_eq
  have hle := I.le
  refine ⟨by omega, I.sum_le, fun hb => (I.sum_eq hb).symm, ?_, ?_, ?_⟩
  · intro id size sys hl
    obtain ⟨l1, l2⟩ := hl
    simp only [step, alloc]
    rw [addMem_spec hle l2, hmax]
    by_cases hf : s.cur + size ≤ max
    · rw [if_pos hf]
      cases sys <;> simp [hf]
    · rw [if_neg hf]; simp [hf]
  · intro id w t sys hl
    have ht := hl.2.1
    simp only [step]
    rcases grow_spec I sys hl with ⟨h1, h2⟩ | ⟨z, gap, h1, h2, h3, h4, h5⟩
    · rw [h1]
      have : ¬ s.cur + t ≤ max := by omega
      simp [this]
    · rw [h5]
      have : s.cur + t ≤ max := by
        have : 1 * t ≤ gap * t := Nat.mul_le_mul_right t h2
        omega
      refine ⟨?_, fun hn => absurd this hn, ?_⟩
      · cases sys <;> simp [this]
      · intro hs
        refine ⟨z, gap, h1, h2, h3, ?_⟩
        cases sys with
        | true => simp only [if_true]; rw [find_cons, if_pos rfl]
        | false => simp at hs
  · intro id z hf
    have hs := sum_remove I.distinct hf
    have hsum' : (s.blocks.map (·.2)).sum ≤ s.cur := I.sum_le
    have hlt := I.lt
    simp only [step, free, hf]
    refine ⟨by omega, usub_eq (by omega) (by omega), by rw [find_remove]; simp, ?_⟩
    intro id' hne
    rw [find_remove, if_neg hne]

/-- A history with an allocation, a growth shrunk to fit the limit, and a release. -/
example : ∃ s, Reach (2 ^ 64) 100 s true ∧ s.cur = 20 ∧ s.blocks = [(2, 20)] :=
  ⟨_, Reach.step (W := 2 ^ 64) (.free 1)
    (Reach.step (.grow 1 50 8 true)
      (Reach.step (.alloc 2 20 true)
        (Reach.step (.alloc 1 40 true) (Reach.init (max := 100)) (by decide)) (by decide)) (by decide))
    (by trivial), by decide, by decide⟩

/-- After a refusal of the system the counter stays above the live memory: the exact equality
needs the hypothesis (mmgcommon_private.h: the `law` of `MMG5_SAFE_CALLOC` does not restore
`memCur`). -/
theorem C18_refusal_drifts : ∃ s b, Reach (2 ^ 64) 100 s b ∧ s.cur = 40 ∧ liveBytes s = 0 :=
  ⟨_, _, Reach.step (.alloc 1 40 false) Reach.init (by decide), by decide, by decide⟩

/-- Requests that wrap around `size_t` are accepted: the hypothesis on sizes is needed. -/
theorem C18_wraparound (s : State) (h : s = ⟨60, 100, []⟩) :
    (step (2 ^ 64) s (.alloc 1 (2 ^ 64 - 50) true)).2 = true := by subst h; decide

end Mmg.Mem
