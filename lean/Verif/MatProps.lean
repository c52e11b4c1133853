/-
Properties C21 and C22: the inverse of the multi-material table.
-/
import Mathlib.Tactic.Common
import Mathlib.Data.List.Basic
import Verif.MatModel

set_option linter.dupNamespace false

namespace Mmg.Mat

/-! ### Helper lemmas -/

/-- Attribute stored for reference `r` of row `m`. -/
def Mat.attr (m : Mat) (r : Int) : Int :=
  if m.dospl ≠ 0 ∧ r = m.rex then MG_PLUS else if m.dospl ≠ 0 ∧ r = m.rin then MG_MINUS else m.dospl

def InvMat.In (im : InvMat) (r : Int) : Prop := 0 ≤ r - im.offset ∧ r - im.offset < im.size

theorem write_spec (im : InvMat) {r : Int} (c : Int) (h : im.In r) :
    ∃ im', im.write r c = some im' ∧ im'.offset = im.offset ∧ im'.size = im.size ∧
      ∀ x, im'.lookup (x - im.offset) = if x = r then c else im.lookup (x - im.offset) := by
  refine ⟨_, if_pos h, rfl, rfl, fun x => ?_⟩
  have : (x - im.offset = r - im.offset) ↔ x = r := by omega
  simp only [this]

theorem set_spec (im : InvMat) (k : Nat) (m : Mat) (h : ∀ r, m.Has r → im.In r) :
    ∃ im', im.set k m = some im' ∧ im'.offset = im.offset ∧ im'.size = im.size ∧
      ∀ x, (m.Has x → im'.lookup (x - im.offset) = code k (m.attr x)) ∧
        (¬ m.Has x → im'.lookup (x - im.offset) = im.lookup (x - im.offset)) := by
  obtain ⟨i1, e1, o1, s1, l1⟩ := write_spec im (code k m.dospl) (h m.ref (.inl rfl))
  unfold InvMat.set
  rw [e1]
  by_cases hd : m.dospl = 0
  · refine ⟨i1, by simp [hd], o1, s1, fun x => ?_⟩
    rw [l1]
    simp [Mat.Has, hd, Mat.attr]
    grind
  · have hi1 : ∀ r, im.In r → i1.In r := fun r hr => by unfold InvMat.In at *; rw [o1, s1]; exact hr
    obtain ⟨i2, e2, o2, s2, l2⟩ := write_spec i1 (code k MG_MINUS) (hi1 m.rin (h m.rin (.inr ⟨hd, .inl rfl⟩)))
    have hi2 : ∀ r, im.In r → i2.In r := fun r hr => by unfold InvMat.In at *; rw [o2, s2, o1, s1]; exact hr
    obtain ⟨i3, e3, o3, s3, l3⟩ := write_spec i2 (code k MG_PLUS) (hi2 m.rex (h m.rex (.inr ⟨hd, .inr rfl⟩)))
    refine ⟨i3, by simp [hd, e2, e3], by rw [o3, o2, o1], by rw [s3, s2, s1], fun x => ?_⟩
    rw [o2, o1] at l3
    rw [o1] at l2
    rw [l3, l2, l1]
    simp only [Mat.Has, hd, Mat.attr, ne_eq, not_false_eq_true, true_and]
    grind

theorem fill_spec (mats : List Mat) : ∀ (k : Nat) (im : InvMat), (∀ m ∈ mats, ∀ r, m.Has r → im.In r) →
    mats.Pairwise (fun m m' => ∀ r, m.Has r → ¬ m'.Has r) →
    ∃ im', fill k mats im = some im' ∧ im'.offset = im.offset ∧ im'.size = im.size ∧
      (∀ j m, mats[j]? = some m → ∀ x, m.Has x → im'.lookup (x - im.offset) = code (k + j) (m.attr x)) ∧
      ∀ x, (∀ m ∈ mats, ¬ m.Has x) → im'.lookup (x - im.offset) = im.lookup (x - im.offset) := by
  induction mats with
  | nil => intro k im _ _; exact ⟨im, rfl, rfl, rfl, by simp, fun _ _ => rfl⟩
  | cons m t ih =>
    intro k im h hp
    obtain ⟨i1, e1, o1, s1, l1⟩ := set_spec im k m (h m (by simp))
    rw [List.pairwise_cons] at hp
    obtain ⟨i2, e2, o2, s2, l2, l3⟩ := ih (k + 1) i1
      (fun m' hm' r hr => by
        have := h m' (List.mem_cons_of_mem _ hm') r hr
        unfold InvMat.In at *; rw [o1, s1]; exact this) hp.2
    rw [o1] at l2 l3
    refine ⟨i2, by simp only [fill, e1, e2], by rw [o2, o1], by rw [s2, s1], ?_, ?_⟩
    · intro j m' hj x hx
      cases j with
      | zero =>
        simp only [List.getElem?_cons_zero, Option.some.injEq] at hj
        subst hj
        rw [l3 x (fun m' hm' => hp.1 m' hm' x hx), (l1 x).1 hx]
        rfl
      | succ j =>
        rw [l2 j m' (by simpa using hj) x hx, Nat.add_assoc, Nat.add_comm 1 j]
    · intro x hx
      rw [l3 x (fun m' hm' => hx m' (List.mem_cons_of_mem _ hm')), (l1 x).2 (hx m (by simp))]

theorem foldl_max (l : List Int) : ∀ a, a ≤ l.foldl max a ∧ ∀ x ∈ l, x ≤ l.foldl max a := by
  induction l with
  | nil => simp
  | cons y t ih =>
    intro a
    obtain ⟨h1, h2⟩ := ih (max a y)
    simp only [List.foldl_cons, List.mem_cons]
    refine ⟨by omega, ?_⟩
    rintro x (rfl | hx)
    · omega
    · exact h2 x hx

theorem foldl_min (l : List Int) : ∀ a, l.foldl min a ≤ a ∧ ∀ x ∈ l, l.foldl min a ≤ x := by
  induction l with
  | nil => simp
  | cons y t ih =>
    intro a
    obtain ⟨h1, h2⟩ := ih (min a y)
    simp only [List.foldl_cons, List.mem_cons]
    refine ⟨by omega, ?_⟩
    rintro x (rfl | hx)
    · omega
    · exact h2 x hx

/-- Value read after the construction of the table. -/
theorem init_spec (intmax : Int) (mats : List Mat) (refs : List Int)
    (hp : mats.Pairwise (fun m m' => ∀ r, m.Has r → ¬ m'.Has r)) :
    ∃ im, init intmax mats refs = some im ∧
      (∀ j m, mats[j]? = some m → ∀ x, m.Has x → im.read x = some (code j (m.attr x))) ∧
      (∀ x a b, a ∈ scanned mats refs → b ∈ scanned mats refs → a ≤ x → x ≤ b → (∀ m ∈ mats, ¬ m.Has x) →
        im.read x = some 0) := by
  have hmx := foldl_max (scanned mats refs) 0
  have hmn := foldl_min (scanned mats refs) intmax
  have hin : ∀ m ∈ mats, ∀ r, m.Has r → r ∈ scanned mats refs := by
    intro m hm r hr
    unfold scanned
    rw [List.mem_append, List.mem_flatMap]
    left
    refine ⟨m, hm, ?_⟩
    rcases hr with rfl | ⟨hd, rfl | rfl⟩
    · split <;> simp
    · simp [hd]
    · simp [hd]
  obtain ⟨im, e, o, s, l1, l2⟩ := fill_spec mats 0
    { offset := (scanned mats refs).foldl min intmax
      size := (scanned mats refs).foldl max 0 - (scanned mats refs).foldl min intmax + 1
      lookup := fun _ => 0 }
    (fun m hm r hr => by
      have a := hmx.2 r (hin m hm r hr)
      have b := hmn.2 r (hin m hm r hr)
      unfold InvMat.In
      simp only
      omega) hp
  simp only at o s l1 l2
  refine ⟨im, e, ?_, ?_⟩
  · intro j m hj x hx
    have hm : m ∈ mats := List.mem_of_getElem? hj
    have a := hmx.2 x (hin m hm x hx)
    have b := hmn.2 x (hin m hm x hx)
    unfold InvMat.read
    rw [o, s, if_pos (by omega), l1 j m hj x hx, Nat.zero_add]
  · intro x a b ha hb hax hxb hx
    have a := hmx.2 b hb
    have b := hmn.2 _ ha
    unfold InvMat.read
    rw [o, s, if_pos (by omega), l2 x hx]

theorem code_div (k : Nat) (a : Int) (h0 : 0 ≤ a) (h3 : a < 4) : (code k a).tdiv 4 - 1 = k ∧ (code k a).tmod 4 = a := by
  unfold code
  constructor
  · rw [Int.tdiv_eq_ediv_of_nonneg (by omega)]; omega
  · rw [Int.tmod_eq_emod_of_nonneg (by omega)]; omega

theorem attr_range {m : Mat} (h : m.dospl = 0 ∨ m.dospl = 1) (r : Int) : 0 ≤ m.attr r ∧ m.attr r < 4 := by
  unfold Mat.attr MG_PLUS MG_MINUS
  split
  · omega
  · split <;> omega

/-- Row and attribute read back. -/
theorem read_back (intmax : Int) {mats : List Mat} (refs : List Int) (hu : Unambiguous mats) :
    ∃ im, init intmax mats refs = some im ∧
      (∀ m ∈ mats, ∀ x, m.Has x → ∃ j : Nat, mats[j]? = some m ∧ getIndex im x = some (j : Int) ∧
        getAttrib im x = some (m.attr x)) ∧
      (∀ x a b, a ∈ scanned mats refs → b ∈ scanned mats refs → a ≤ x → x ≤ b → (∀ m ∈ mats, ¬ m.Has x) →
        getIndex im x = some (-1) ∧ getAttrib im x = some 0) := by
  obtain ⟨im, e, h1, h2⟩ := init_spec intmax mats refs hu.rows
  refine ⟨im, e, ?_, ?_⟩
  · intro m hm x hx
    obtain ⟨j, hj⟩ := List.mem_iff_getElem?.1 hm
    obtain ⟨r0, r1⟩ := attr_range (hu.attr m hm) x
    obtain ⟨c1, c2⟩ := code_div j _ r0 r1
    refine ⟨j, hj, ?_, ?_⟩
    · simp only [getIndex, h1 j m hj x hx, Option.map_some, c1]
    · simp only [getAttrib, h1 j m hj x hx, Option.map_some, c2]
  · intro x a b ha hb hax hxb hx
    simp only [getIndex, getAttrib, h2 x a b ha hb hax hxb hx, Option.map_some]
    decide

theorem matAt_nat (mats : List Mat) (j : Nat) : matAt mats j = mats[j]? := by
  simp [matAt]

/-! ### C21 -/

/-- **C21.** For an unambiguous table, `MMG5_MultiMat_init` succeeds without any access out of bounds;
every reference of the table is sent back to the reference of its row, and a reference not in the table but
between two references seen at construction (table or mesh) is reported as not found. -/
theorem C21_inverse_map (intmax : Int) {mats : List Mat} (refs : List Int) (hu : Unambiguous mats) :
    ∃ im, init intmax mats refs = some im ∧
      (∀ m ∈ mats, ∀ r, m.Has r → getStartRef mats im r = some (some m.ref)) ∧
      (∀ r a b, a ∈ scanned mats refs → b ∈ scanned mats refs → a ≤ r → r ≤ b → (∀ m ∈ mats, ¬ m.Has r) →
        getStartRef mats im r = some none) := by
  obtain ⟨im, e, h1, h2⟩ := read_back intmax refs hu
  refine ⟨im, e, ?_, ?_⟩
  · intro m hm r hr
    obtain ⟨j, hj, hi, -⟩ := h1 m hm r hr
    have : ¬ ((j : Int) = -1) := by omega
    simp only [getStartRef, hi, if_neg this, matAt_nat, hj, Option.map_some]
  · intro r a b ha hb hr hr' hn
    simp only [getStartRef, (h2 r a b ha hb hr hr' hn).1, if_true]

/-- Two rows: material 1 split into 10 (inside) and 1 itself (outside), material 5 kept. -/
def sampleTable : List Mat := [⟨1, 1, 10, 1⟩, ⟨0, 5, 5, 5⟩]

theorem sampleTable_ok : Unambiguous sampleTable := by
  constructor
  · decide
  · decide
  · simp only [sampleTable, List.pairwise_cons, List.mem_singleton, forall_eq, Mat.Has]
    refine ⟨?_, by simp⟩
    omega

example : Unambiguous sampleTable ∧ (⟨1, 1, 10, 1⟩ : Mat) ∈ sampleTable ∧ (⟨1, 1, 10, 1⟩ : Mat).Has 10 :=
  ⟨sampleTable_ok, by decide, by simp [Mat.Has]⟩

/-- C21, what is not protected: the table only covers the references present when the last material was set.
With a reference that appears in the mesh later the table is read out of bounds. -/
theorem C21_later_reference_out_of_bounds :
    ∃ im, init 1000 sampleTable [1, 5] = some im ∧ getStartRef sampleTable im 11 = none ∧
      isSplit sampleTable im 11 = none := by
  refine ⟨(init 1000 sampleTable [1, 5]).get (by decide), (Option.some_get _).symm, by decide, by decide⟩

/-! ### C22 -/

/-- **C22 (split).** A reference of the table is reported as to be split iff its material has the split
attribute, with the user's inside and outside references. -/
theorem C22_is_split (intmax : Int) {mats : List Mat} (refs : List Int) (hu : Unambiguous mats) :
    ∃ im, init intmax mats refs = some im ∧ ∀ m ∈ mats, ∀ r, m.Has r →
      isSplit mats im r = some (if m.dospl = 1 then some (m.rin, m.rex) else none) := by
  obtain ⟨im, e, h1, h2⟩ := read_back intmax refs hu
  refine ⟨im, e, ?_⟩
  intro m hm r hr
  obtain ⟨j, hj, hi, -⟩ := h1 m hm r hr
  simp only [isSplit, hi, matAt_nat, hj, Option.map_some]
  rcases hu.attr m hm with h | h <;> simp [h]

/-- **C22 (level-set).** A face between two sub-domains is on the level-set iff one is an inside child and
the other an outside child of split materials. -/
theorem C22_is_level_set (intmax : Int) {mats : List Mat} (refs : List Int) (hu : Unambiguous mats) :
    ∃ im, init intmax mats refs = some im ∧ ∀ r0 r1,
      (∃ a ∈ scanned mats refs, a ≤ r0) → (∃ a ∈ scanned mats refs, r0 ≤ a) →
      (∃ a ∈ scanned mats refs, a ≤ r1) → (∃ a ∈ scanned mats refs, r1 ≤ a) →
      ∃ b, isLevelSet im r0 r1 = some b ∧ (b = true ↔
        ((∃ m ∈ mats, m.dospl = 1 ∧ r0 = m.rin) ∧ (∃ m ∈ mats, m.dospl = 1 ∧ r1 = m.rex)) ∨
        ((∃ m ∈ mats, m.dospl = 1 ∧ r1 = m.rin) ∧ (∃ m ∈ mats, m.dospl = 1 ∧ r0 = m.rex))) := by
  obtain ⟨im, e, h1, h2⟩ := read_back intmax refs hu
  refine ⟨im, e, ?_⟩
  -- attribute of any reference in range
  have key : ∀ r, (∃ a ∈ scanned mats refs, a ≤ r) → (∃ a ∈ scanned mats refs, r ≤ a) →
      ∃ a, getAttrib im r = some a ∧ 0 ≤ a ∧ a ≤ 3 ∧ (a = 3 ↔ ∃ m ∈ mats, m.dospl = 1 ∧ r = m.rin) ∧
        (a = 2 ↔ ∃ m ∈ mats, m.dospl = 1 ∧ r = m.rex) := by
    rintro r ⟨a, ha, ha'⟩ ⟨b, hb, hb'⟩
    by_cases hin : ∃ m ∈ mats, m.Has r
    · obtain ⟨m, hm, hr⟩ := hin
      obtain ⟨j, hj, -, hat⟩ := h1 m hm r hr
      have huniq : ∀ m' ∈ mats, m'.Has r → m' = m := by
        intro m' hm' hr'
        by_contra hne
        obtain ⟨i, hi⟩ := List.mem_iff_getElem?.1 hm
        obtain ⟨i', hi'⟩ := List.mem_iff_getElem?.1 hm'
        have hpw := List.pairwise_iff_getElem.1 hu.rows
        obtain ⟨li, ei⟩ := List.getElem?_eq_some_iff.1 hi
        obtain ⟨li', ei'⟩ := List.getElem?_eq_some_iff.1 hi'
        rcases Nat.lt_trichotomy i i' with q | q | q
        · exact (ei ▸ ei' ▸ hpw i i' li li' q) r hr hr'
        · subst q; rw [ei] at ei'; exact hne ei'.symm
        · exact (ei ▸ ei' ▸ hpw i' i li' li q) r hr' hr
      have hch := hu.child m hm
      obtain ⟨q0, q1⟩ := attr_range (hu.attr m hm) r
      refine ⟨_, hat, q0, by omega, ?_, ?_⟩
      · constructor
        · intro h3
          refine ⟨m, hm, ?_⟩
          rcases hu.attr m hm with hd | hd <;> simp only [Mat.attr, hd, MG_PLUS, MG_MINUS] at h3 ⊢
          · simp at h3
          · refine ⟨trivial, ?_⟩
            by_contra hc
            simp only [hc, and_false, if_false] at h3
            split at h3 <;> omega
        · rintro ⟨m', hm', hd, rfl⟩
          obtain rfl := huniq m' hm' (.inr ⟨by omega, .inl rfl⟩)
          simp [Mat.attr, hd, MG_MINUS, hch (by omega)]
      · constructor
        · intro h3
          refine ⟨m, hm, ?_⟩
          rcases hu.attr m hm with hd | hd <;> simp only [Mat.attr, hd, MG_PLUS, MG_MINUS] at h3 ⊢
          · simp at h3
          · refine ⟨trivial, ?_⟩
            by_contra hc
            simp only [hc, and_false, if_false] at h3
            split at h3 <;> omega
        · rintro ⟨m', hm', hd, rfl⟩
          obtain rfl := huniq m' hm' (.inr ⟨by omega, .inr rfl⟩)
          simp [Mat.attr, hd, MG_PLUS]
    · have hn : ∀ m ∈ mats, ¬ m.Has r := fun m hm hr => hin ⟨m, hm, hr⟩
      refine ⟨0, (h2 r a b ha hb ha' hb' hn).2, by omega, by omega, ?_, ?_⟩
      · refine ⟨fun h => by omega, ?_⟩
        rintro ⟨m', hm', hd, rfl⟩
        exact absurd (.inr ⟨by omega, .inl rfl⟩) (hn m' hm')
      · refine ⟨fun h => by omega, ?_⟩
        rintro ⟨m', hm', hd, rfl⟩
        exact absurd (.inr ⟨by omega, .inr rfl⟩) (hn m' hm')
  intro r0 r1 l0 u0 l1 u1
  obtain ⟨a, ea, a0, a3, am, ap⟩ := key r0 l0 u0
  obtain ⟨b, eb, b0, b3, bm, bp⟩ := key r1 l1 u1
  refine ⟨if a + b = MG_MINUS + MG_PLUS then true else false, by simp only [isLevelSet, ea, eb], ?_⟩
  rw [← am, ← ap, ← bm, ← bp]
  have c : (if a + b = MG_MINUS + MG_PLUS then true else false) = true ↔ a + b = 5 := by
    by_cases q : a + b = MG_MINUS + MG_PLUS
    · simp only [q, if_true]; decide
    · simp only [q, if_false]
      have : ¬ a + b = 5 := q
      simp [this]
  rw [c]
  omega

example : (∃ im, init 1000 sampleTable [1, 5] = some im ∧ isLevelSet im 10 1 = some true ∧
    isLevelSet im 10 5 = some false ∧ isSplit sampleTable im 10 = some (some (10, 1)) ∧
    isSplit sampleTable im 5 = some none) :=
  ⟨(init 1000 sampleTable [1, 5]).get (by decide), (Option.some_get _).symm, by decide, by decide, by decide, by decide⟩

/-- C22 (no split), what the code computes: a reference of the table is reported as *not to be split* iff its
material *has* the split attribute. The test at mmg2.c:456 is inverted with respect to its documentation. -/
theorem C22_is_not_split_inverted_partial (intmax : Int) {mats : List Mat} (refs : List Int) (hu : Unambiguous mats) :
    ∃ im, init intmax mats refs = some im ∧ ∀ m ∈ mats, ∀ r, m.Has r →
      ∃ b, isNotSplit im r = some b ∧ (b = true ↔ m.dospl = 1) := by
  obtain ⟨im, e, h1, h2⟩ := read_back intmax refs hu
  refine ⟨im, e, ?_⟩
  intro m hm r hr
  obtain ⟨j, hj, -, hat⟩ := h1 m hm r hr
  refine ⟨if m.attr r = 0 then false else true, by simp only [isNotSplit, hat, Option.map_some], ?_⟩
  rcases hu.attr m hm with h | h
  · simp [Mat.attr, h]
  · have : m.attr r ≠ 0 := by
      unfold Mat.attr MG_PLUS MG_MINUS
      split
      · decide
      · split
        · decide
        · rw [h]; decide
    simp [this, h]

/-- C22 (no split), counterexample: the kept material 5 is not reported as not to be split and the split
material 1 is. -/
theorem C22_is_not_split_false : ∃ im, init 1000 sampleTable [1, 5] = some im ∧
    isNotSplit im 5 = some false ∧ isNotSplit im 10 = some true :=
  ⟨(init 1000 sampleTable [1, 5]).get (by decide), (Option.some_get _).symm, by decide, by decide⟩

/-! ### The API call -/

/-- A call: the mesh references present at that time and the arguments. -/
structure Call where
  refs : List Int
  ref : Int
  split : Int
  rin : Int
  rex : Int

/-- States reached from a fresh table of `n` materials (`MMG3D_IPARAM_numberOfMat`) by accepted or refused
calls. -/
inductive Reach (intmax : Int) (n : Nat) : Info → Prop
  | init : Reach intmax n ⟨n, [], none⟩
  | call {I I' : Info} {b : Bool} (c : Call) (h : Reach intmax n I)
      (e : setMat intmax c.refs I c.ref c.split c.rin c.rex = some (I', b)) : Reach intmax n I'

theorem updRow_none {ref split rin rex : Int} {l : List Mat} (h : updRow ref split rin rex l = none) :
    ∀ m ∈ l, m.ref ≠ ref := by
  induction l with
  | nil => simp
  | cons m t ih =>
    unfold updRow at h
    split at h
    · cases h
    · rename_i hn
      simp only [Option.map_eq_none_iff] at h
      intro m' hm'
      rcases List.mem_cons.1 hm' with rfl | hm'
      · exact hn
      · exact ih h m' hm'

theorem updRow_some {ref split rin rex : Int} {l l' : List Mat} (h : updRow ref split rin rex l = some l') :
    l'.map (·.ref) = l.map (·.ref) ∧
    (∃ m ∈ l', m.ref = ref ∧ m.dospl = split ∧ (split ≠ 0 → m.rin = rin ∧ m.rex = rex)) ∧
    ∀ m, m.ref ≠ ref → (m ∈ l' ↔ m ∈ l) := by
  induction l generalizing l' with
  | nil => cases h
  | cons m t ih =>
    unfold updRow at h
    split at h
    · rename_i hn
      cases h
      refine ⟨rfl, ⟨_, List.mem_cons_self, hn, rfl, fun hs => ⟨if_pos hs, if_pos hs⟩⟩, ?_⟩
      intro m' hm'
      simp only [List.mem_cons]
      constructor
      · rintro (rfl | h)
        · exact absurd hn hm'
        · exact .inr h
      · rintro (rfl | h)
        · exact absurd hn hm'
        · exact .inr h
    · rename_i hn
      simp only [Option.map_eq_some_iff] at h
      obtain ⟨t', ht, rfl⟩ := h
      obtain ⟨a, ⟨w, b1, b2⟩, c⟩ := ih ht
      refine ⟨by simp [a], ⟨w, by simp [b1], b2⟩, ?_⟩
      intro m' hm'
      simp only [List.mem_cons, c m' hm']

/-- **C21 (API).** In any state reached by calls, parent references are pairwise distinct and no more rows
than announced are set; an accepted call leaves every other material alone and gives the values of the call
to the material `ref`; a refused call changes nothing. -/
theorem C21_set_material {intmax : Int} {n : Nat} {I : Info} (h : Reach intmax n I) :
    (I.mats.map (·.ref)).Nodup ∧ I.mats.length ≤ n ∧
    ∀ (c : Call) (I' : Info) (b : Bool), setMat intmax c.refs I c.ref c.split c.rin c.rex = some (I', b) →
      (b = false → I' = I) ∧
      (b = true → (∃ m ∈ I'.mats, m.ref = c.ref ∧ m.dospl = c.split ∧
          (c.split ≠ 0 → m.rin = c.rin ∧ m.rex = c.rex)) ∧
        ∀ m, m.ref ≠ c.ref → (m ∈ I'.mats ↔ m ∈ I.mats)) := by
  have step : ∀ (I : Info) (c : Call) (I' : Info) (b : Bool), (I.mats.map (·.ref)).Nodup → I.mats.length ≤ n → I.nmat = n →
      setMat intmax c.refs I c.ref c.split c.rin c.rex = some (I', b) →
      (I'.mats.map (·.ref)).Nodup ∧ I'.mats.length ≤ n ∧ I'.nmat = n ∧ (b = false → I' = I) ∧
      (b = true → (∃ m ∈ I'.mats, m.ref = c.ref ∧ m.dospl = c.split ∧
          (c.split ≠ 0 → m.rin = c.rin ∧ m.rex = c.rex)) ∧
        ∀ m, m.ref ≠ c.ref → (m ∈ I'.mats ↔ m ∈ I.mats)) := by
    intro I c I' b hnd hl hn e
    unfold setMat at e
    split at e
    · cases e; exact ⟨hnd, hl, hn, fun _ => rfl, fun h => by cases h⟩
    split at e
    · cases e; exact ⟨hnd, hl, hn, fun _ => rfl, fun h => by cases h⟩
    split at e
    · cases e; exact ⟨hnd, hl, hn, fun _ => rfl, fun h => by cases h⟩
    split at e
    · rename_i l hu
      cases e
      obtain ⟨a, b', c'⟩ := updRow_some hu
      have hlen : l.length = I.mats.length := by
        have := congrArg List.length a
        simpa using this
      exact ⟨by simpa only [a] using hnd, by simpa only [hlen] using hl, hn, (fun h => by cases h), fun _ => ⟨b', c'⟩⟩
    · rename_i hnn _ hu
      have hu' := updRow_none hu
      split at e
      · cases e; exact ⟨hnd, hl, hn, fun _ => rfl, fun h => by cases h⟩
      have w : ((I.mats ++ [(⟨c.split, c.ref, c.rin, c.rex⟩ : Mat)]).map (·.ref)).Nodup := by
        rw [List.map_append, List.nodup_append]
        refine ⟨hnd, by simp, ?_⟩
        intro x hx y hy
        simp only [List.map_cons, List.map_nil, List.mem_singleton] at hy
        obtain ⟨m, hm, rfl⟩ := List.mem_map.1 hx
        rw [hy]; exact hu' m hm
      have q : ∀ m : Mat, m.ref ≠ c.ref → (m ∈ I.mats ++ [⟨c.split, c.ref, c.rin, c.rex⟩] ↔ m ∈ I.mats) := by
        intro m hm
        simp only [List.mem_append, List.mem_singleton]
        refine ⟨?_, .inl⟩
        rintro (h | rfl)
        · exact h
        · exact absurd rfl hm
      have q2 : ∃ m ∈ I.mats ++ [(⟨c.split, c.ref, c.rin, c.rex⟩ : Mat)], m.ref = c.ref ∧ m.dospl = c.split ∧
          (c.split ≠ 0 → m.rin = c.rin ∧ m.rex = c.rex) :=
        ⟨_, List.mem_append_right _ (List.mem_singleton.2 rfl), rfl, rfl, fun _ => ⟨rfl, rfl⟩⟩
      have hlen : (I.mats ++ [(⟨c.split, c.ref, c.rin, c.rex⟩ : Mat)]).length ≤ n := by
        simp only [List.length_append, List.length_cons, List.length_nil]; omega
      simp only at e
      split at e
      · simp only [Option.map_eq_some_iff] at e
        obtain ⟨im, -, e⟩ := e
        cases e
        exact ⟨w, hlen, hn, (fun h => by cases h), fun _ => ⟨q2, q⟩⟩
      · cases e
        exact ⟨w, hlen, hn, (fun h => by cases h), fun _ => ⟨q2, q⟩⟩
  have inv : (I.mats.map (·.ref)).Nodup ∧ I.mats.length ≤ n ∧ I.nmat = n := by
    induction h with
    | init => simp
    | call c _ e ih =>
      obtain ⟨a, b, d⟩ := ih
      obtain ⟨a', b', d', -⟩ := step _ c _ _ a b d e
      exact ⟨a', b', d'⟩
  refine ⟨inv.1, inv.2.1, fun c I' b e => ?_⟩
  exact (step I c I' b inv.1 inv.2.1 inv.2.2 e).2.2.2

/-- The concrete table of two materials, set by two calls. -/
example : ∃ I, Reach 1000 2 I ∧ I.mats = sampleTable ∧ I.inv.isSome := by
  have h1 : Reach 1000 2 ⟨2, [⟨1, 1, 10, 1⟩], none⟩ := .call ⟨[1, 5], 1, 1, 10, 1⟩ .init rfl
  obtain ⟨im, e, -⟩ := C21_inverse_map 1000 [1, 5] sampleTable_ok
  refine ⟨⟨2, sampleTable, some im⟩, ?_, rfl, rfl⟩
  refine .call ⟨[1, 5], 5, 0, 5, 5⟩ h1 (b := true) ?_
  have : setMat 1000 [1, 5] ⟨2, [⟨1, 1, 10, 1⟩], none⟩ 5 0 5 5 =
      (init 1000 sampleTable [1, 5]).map (fun im => (⟨2, sampleTable, some im⟩, true)) := rfl
  rw [this, e]
  rfl

/-- C21 (API), what is not checked: replacing the values of an existing material accepts a split attribute other
than 0 and 1. The stored code then designates another row: material 1 is reported as child of
material 5, and as not split. -/
theorem C21_replaced_attribute_unchecked : ∃ I1 I2 I3 im,
    setMat 1000 [1, 5] ⟨2, [], none⟩ 1 1 10 11 = some (I1, true) ∧
    setMat 1000 [1, 5] I1 1 4 10 11 = some (I2, true) ∧
    setMat 1000 [1, 5] I2 5 0 5 5 = some (I3, true) ∧ I3.inv = some im ∧
    getStartRef I3.mats im 1 = some (some 5) ∧ isSplit I3.mats im 1 = some none := by
  refine ⟨⟨2, [⟨1, 1, 10, 11⟩], none⟩, ⟨2, [⟨4, 1, 10, 11⟩], none⟩,
    ⟨2, [⟨4, 1, 10, 11⟩, ⟨0, 5, 5, 5⟩], some ((init 1000 [⟨4, 1, 10, 11⟩, ⟨0, 5, 5, 5⟩] [1, 5]).get (by decide))⟩, _,
    rfl, rfl, ?_, rfl, by decide, by decide⟩
  have : setMat 1000 [1, 5] ⟨2, [⟨4, 1, 10, 11⟩], none⟩ 5 0 5 5 =
      (init 1000 [⟨4, 1, 10, 11⟩, ⟨0, 5, 5, 5⟩] [1, 5]).map
        (fun im => (⟨2, [⟨4, 1, 10, 11⟩, ⟨0, 5, 5, 5⟩], some im⟩, true)) := rfl
  rw [this, Option.map_eq_some_iff]
  exact ⟨_, (Option.some_get _).symm, rfl⟩

/-- C21 (API): once all announced materials are set, the values of a material can no longer be replaced. -/
theorem C21_full_table_frozen {intmax : Int} {I : Info} (h : I.mats.length ≥ I.nmat) (c : Call) :
    setMat intmax c.refs I c.ref c.split c.rin c.rex = some (I, false) := by
  unfold setMat
  split <;> rfl

example : (⟨2, sampleTable, none⟩ : Info).mats.length ≥ (⟨2, sampleTable, none⟩ : Info).nmat := by decide

end Mmg.Mat
