/- The zone search and the run of the octree operations: helper lemmas. -/
import Verif.OctLemmas

namespace Mmg.Oct

variable {α : Type} [Field α] [LinearOrder α] [IsStrictOrderedRing α]
variable {nv : Nat} {pos : Nat → Fin 3 → α}

/-! ### Rounding of the cell size -/

theorem or_shift_lt {n k : Nat} (s : Nat) (h : n < 2 ^ k) : n ||| (n >>> s) < 2 ^ k :=
  Nat.or_lt_two_pow h (lt_of_le_of_lt (Nat.shiftRight_le n s) h)

/-- The bits of `n` from `k - w` on (with `k` the number of bits) are set. -/
def Filled (n k w : Nat) : Prop := ∀ i, i < k → k ≤ i + w → n.testBit i = true

theorem Filled.step {n k w : Nat} (h : Filled n k w) : Filled (n ||| (n >>> w)) k (2 * w) := by
  intro i hi hk
  rw [Nat.testBit_or, Nat.testBit_shiftRight]
  by_cases h1 : k ≤ i + w
  · rw [h i hi h1]; simp
  · rw [h (w + i) (by omega) (by omega)]; simp

theorem filled_eq {n k w : Nat} (h : Filled n k w) (hw : k ≤ w) (hlt : n < 2 ^ k) :
    n = 2 ^ k - 1 := by
  apply Nat.eq_of_testBit_eq
  intro i
  rw [Nat.testBit_two_pow_sub_one]
  by_cases hi : i < k
  · rw [h i hi (by omega)]; simp [hi]
  · rw [Nat.testBit_lt_two_pow (lt_of_lt_of_le hlt (Nat.pow_le_pow_right (by omega) (by omega)))]
    simp [hi]

theorem roundNv_spec {n : Nat} (h0 : 0 < n) (h : n ≤ 2 ^ 31) :
    ∃ a, roundNv n = 2 ^ a ∧ n ≤ 2 ^ a ∧ (n = 1 ∨ 2 ^ a < 2 * n) := by
  by_cases h1 : n = 1
  · subst h1; exact ⟨0, by decide, by decide, Or.inl rfl⟩
  have hne : n - 1 ≠ 0 := by omega
  have hk1 : 2 ^ Nat.log 2 (n - 1) ≤ n - 1 := Nat.pow_log_le_self 2 hne
  have hk2 : n - 1 < 2 ^ (Nat.log 2 (n - 1) + 1) := Nat.lt_pow_succ_log_self (by omega) _
  obtain ⟨k, hk⟩ : ∃ k, k = Nat.log 2 (n - 1) + 1 := ⟨_, rfl⟩
  rw [← hk] at hk2
  have hk3 : 2 ^ (k - 1) ≤ n - 1 := by rw [hk]; exact hk1
  have hk0 : 0 < k := by omega
  have hk32 : k ≤ 32 := by
    by_contra hc
    have : 2 ^ 32 ≤ 2 ^ (k - 1) := Nat.pow_le_pow_right (by omega) (by omega)
    omega
  have f0 : Filled (n - 1) k 1 := by
    intro i hi hk'
    have : i = k - 1 := by omega
    subst this
    have h4 : (n - 1) / 2 ^ (k - 1) = 1 := by
      have h5 : 2 ^ k = 2 ^ (k - 1) * 2 := by rw [← Nat.pow_succ]; congr 1; omega
      apply Nat.div_eq_of_lt_le
      · omega
      · omega
    rw [Nat.testBit_eq_decide_div_mod_eq, h4]; rfl
  have e : roundNv n - 1 = 2 ^ k - 1 ∧ 0 < roundNv n := by
    refine ⟨?_, Nat.succ_pos _⟩
    have g1 := f0.step; have l1 := or_shift_lt 1 hk2
    have g2 := g1.step; have l2 := or_shift_lt 2 l1
    have g3 := g2.step; have l3 := or_shift_lt 4 l2
    have g4 := g3.step; have l4 := or_shift_lt 8 l3
    have g5 := g4.step; have l5 := or_shift_lt 16 l4
    exact filled_eq g5 (by omega) l5
  have := Nat.two_pow_pos k
  refine ⟨k, by omega, by omega, Or.inr ?_⟩
  have h5 : 2 ^ k = 2 ^ (k - 1) * 2 := by rw [← Nat.pow_succ]; congr 1; omega
  omega

/-! ### Cells -/

theorem half_pos (d : Nat) : (0 : α) < half d := by unfold half; positivity

theorem half_succ (d : Nat) : (half (d + 1) : α) = half d / 2 := by
  unfold half; rw [pow_succ (2 : α) (d + 1)]; field_simp

/-- `x` is in the closed cell of depth `d` and centre `c`. -/
def InCell (d : Nat) (c x : Fin 3 → α) : Prop := ∀ i, c i - half d ≤ x i ∧ x i ≤ c i + half d

theorem InCell.sub {d : Nat} {c x : Fin 3 → α} (h : InCell d c x) :
    InCell (d + 1) (subCenter c d (quadOf x c)) x := by
  intro i
  obtain ⟨h1, h2⟩ := h i
  rw [half_succ]
  simp only [subCenter, bit_quadOf, decide_eq_true_eq]
  by_cases hx : x i > c i
  · simp only [if_pos hx]; constructor <;> linarith
  · simp only [if_neg hx]; constructor <;> linarith

/-- `x` is in the closed box. -/
def InBox (r : Box α) (x : Fin 3 → α) : Prop := ∀ i, r.lo i ≤ x i ∧ x i ≤ r.lo i + r.len i

theorem meets_of {r : Box α} {c x : Fin 3 → α} (h : InBox r x) :
    meets r c (quadOf x c) = true := by
  unfold meets
  rw [decide_eq_true_eq]
  intro i
  obtain ⟨h1, h2⟩ := h i
  simp only [bit_quadOf, decide_eq_true_eq]
  by_cases hx : x i > c i
  · rw [if_pos hx]; linarith
  · rw [if_neg hx]; linarith

theorem intersect_some {r1 r2 r : Box α} (h : intersectRect r1 r2 = some r) :
    (∀ i, r.lo i = max (r1.lo i) (r2.lo i) ∧
      r.lo i + r.len i = min (r1.lo i + r1.len i) (r2.lo i + r2.len i)) := by
  unfold intersectRect at h
  dsimp only at h
  by_cases hn : ((if r1.len 0 + r1.lo 0 < r2.len 0 + r2.lo 0 then r1.len 0 + r1.lo 0 else
        r2.len 0 + r2.lo 0) - (if r1.lo 0 > r2.lo 0 then r1.lo 0 else r2.lo 0) ≤ 0 ∨
      (if r1.len 1 + r1.lo 1 < r2.len 1 + r2.lo 1 then r1.len 1 + r1.lo 1 else
        r2.len 1 + r2.lo 1) - (if r1.lo 1 > r2.lo 1 then r1.lo 1 else r2.lo 1) ≤ 0 ∨
      (if r1.len 2 + r1.lo 2 < r2.len 2 + r2.lo 2 then r1.len 2 + r1.lo 2 else
        r2.len 2 + r2.lo 2) - (if r1.lo 2 > r2.lo 2 then r1.lo 2 else r2.lo 2) ≤ 0)
  · rw [if_pos hn] at h; exact absurd h (by simp)
  · rw [if_neg hn] at h
    have h := Option.some.inj h
    subst h
    intro i
    dsimp only
    constructor
    · by_cases hx : r1.lo i > r2.lo i
      · rw [if_pos hx, max_eq_left hx.le]
      · rw [if_neg hx, max_eq_right (not_lt.1 hx)]
    · by_cases hx : r1.len i + r1.lo i < r2.len i + r2.lo i
      · rw [if_pos hx, min_eq_left (by linarith)]; ring
      · rw [if_neg hx, min_eq_right (by linarith [not_lt.1 hx])]; ring

theorem intersect_inBox {r1 r2 r : Box α} (h : intersectRect r1 r2 = some r) {x : Fin 3 → α}
    (h1 : InBox r1 x) (h2 : InBox r2 x) : InBox r x := by
  intro i
  obtain ⟨e1, e2⟩ := intersect_some h i
  rw [e2, e1]
  exact ⟨max_le (h1 i).1 (h2 i).1, le_min (h1 i).2 (h2 i).2⟩

theorem inBox_subBox {d : Nat} {c x : Fin 3 → α} (h : InCell d c x) :
    InBox (subBox c d (quadOf x c)) x := by
  intro i
  obtain ⟨h1, h2⟩ := h i
  simp only [subBox, bit_quadOf, decide_eq_true_eq]
  by_cases hx : x i > c i
  · simp only [if_pos hx]; constructor <;> linarith
  · simp only [if_neg hx]; constructor <;> linarith

/-! ### The search -/

omit [IsStrictOrderedRing α] in
theorem place_perm (L : List (α × Oct)) (x : α) (q : Oct) : (place L x q).Perm ((x, q) :: L) := by
  unfold place
  split
  · dsimp only
    split
    · refine List.perm_middle.trans ?_
      rw [List.take_append_drop]
    · exact List.perm_append_singleton _ _
  · exact List.perm_append_singleton _ _

/-- The non-empty leaves. -/
inductive LeafOf : Oct → Oct → Prop
  | here (d cap : Nat) (l : List Nat) : cap ≠ 0 → LeafOf (.leaf d cap l) (.leaf d cap l)
  | sub (d nb : Nat) (br : Nat → Oct) (b : Nat) (q : Oct) : b < 8 → LeafOf q (br b) →
      LeafOf q (.branch d nb br)

/-- Number of non-empty leaves. -/
def leafCount : Oct → Nat
  | .leaf _ cap _ => if cap = 0 then 0 else 1
  | .branch _ _ br => ((List.range 8).map fun b => leafCount (br b)).sum

/-- What the search guarantees. -/
structure ListOK (nc : Nat) (pos : Nat → Fin 3 → α) (q : Oct) (P : Nat → Prop)
    (L : List (α × Oct)) (res : Bool × List (α × Oct)) : Prop where
  sub : ∀ e ∈ L, e ∈ res.2
  len : L.length ≤ res.2.length
  new : ∀ e ∈ res.2, e ∈ L ∨ LeafOf e.2 q
  few : res.2.length ≤ L.length + leafCount q
  all : res.1 = true → res.2.length + 4 ≤ nc → ∀ x ∈ q.items, P x → ∃ e ∈ res.2, x ∈ e.2.items

/-- One step of the loops over the branches. -/
def stepB (nc : Nat) (ctr : Fin 3 → α) (d : Nat) (br : Nat → Oct) (c : Fin 3 → α) (r : Box α)
    (acc : Bool × List (α × Oct)) (b : Nat) : Bool × List (α × Oct) :=
  if acc.1 then
    if meets r c b then
      match intersectRect r (subBox c d b) with
      | none => (false, acc.2)
      | some r' => listRec nc ctr (br b) (subCenter c d b) r' acc.2
    else acc
  else acc

omit [IsStrictOrderedRing α] in
theorem listRec_branch (nc : Nat) (ctr : Fin 3 → α) (d nb : Nat) (br : Nat → Oct) (c : Fin 3 → α)
    (r : Box α) (L : List (α × Oct)) :
    listRec nc ctr (.branch d nb br) c r L =
      if L.length + 4 > nc then (true, L) else order.foldl (stepB nc ctr d br c r) (true, L) := by
  rw [listRec]; rfl

theorem mem_order : ∀ b, b < 8 → b ∈ order := by decide

theorem sum_order (f : Nat → Nat) :
    (order.map f).sum = ((List.range 8).map f).sum := by
  simp [order, List.range_succ]
  omega

theorem listRec_spec (nc : Nat) (ctr : Fin 3 → α) : ∀ (q : Oct) (d : Nat) (c : Fin 3 → α)
    (r : Box α) (L : List (α × Oct)), WF nv pos q d c →
    ListOK nc pos q (fun x => InCell d c (pos x) ∧ InBox r (pos x)) L (listRec nc ctr q c r L) := by
  intro q
  induction q with
  | leaf d1 cap l =>
    intro d c r L hW
    unfold WF at hW
    obtain ⟨rfl, C, _⟩ := hW
    unfold listRec
    by_cases hfull : L.length + 4 > nc
    · rw [if_pos hfull]
      exact ⟨fun e h => h, le_refl _, fun e h => Or.inl h, Nat.le_add_right _ _,
        fun _ h => by dsimp only at h; omega⟩
    · rw [if_neg hfull]
      by_cases hc : cap ≠ 0
      · rw [if_pos hc]
        dsimp only
        have hp := place_perm L ((ctr 0 - c 0) * (ctr 0 - c 0) + (ctr 1 - c 1) * (ctr 1 - c 1) +
          (ctr 2 - c 2) * (ctr 2 - c 2)) (.leaf d1 cap l)
        refine ⟨?_, ?_, ?_, ?_, ?_⟩
        · intro e he; exact hp.symm.subset (by simp [he])
        · dsimp only; rw [hp.length_eq]; simp
        · intro e he
          rcases List.mem_cons.1 (hp.subset he) with rfl | h
          · exact Or.inr (.here _ _ _ hc)
          · exact Or.inl h
        · dsimp only; rw [hp.length_eq]; simp [leafCount, hc]
        · intro _ _ x hx _
          exact ⟨_, hp.symm.subset (List.mem_cons_self ..), hx⟩
      · rw [if_neg hc]
        refine ⟨fun e h => h, le_refl _, fun e h => Or.inl h, Nat.le_add_right _ _, ?_⟩
        intro _ _ x hx
        have h0 : l.length = 0 := C.1.1 (by omega)
        rw [Oct.items, List.length_eq_zero_iff.1 h0] at hx
        simp at hx
  | branch d1 nb br ih =>
    intro d c r L hW
    unfold WF at hW
    obtain ⟨rfl, hd, hnb, htot, H⟩ := hW
    rw [listRec_branch]
    by_cases hfull : L.length + 4 > nc
    · rw [if_pos hfull]
      exact ⟨fun e h => h, le_refl _, fun e h => Or.inl h, Nat.le_add_right _ _,
        fun _ h => by dsimp only at h; omega⟩
    · rw [if_neg hfull]
      -- the loop
      have hloop : ∀ (bs : List Nat) (acc : Bool × List (α × Oct)), (∀ b ∈ bs, b < 8) →
          (∀ e ∈ acc.2, e ∈ (bs.foldl (stepB nc ctr d1 br c r) acc).2) ∧
          acc.2.length ≤ (bs.foldl (stepB nc ctr d1 br c r) acc).2.length ∧
          (∀ e ∈ (bs.foldl (stepB nc ctr d1 br c r) acc).2,
            e ∈ acc.2 ∨ LeafOf e.2 (.branch d1 nb br)) ∧
          (bs.foldl (stepB nc ctr d1 br c r) acc).2.length ≤
            acc.2.length + (bs.map fun b => leafCount (br b)).sum ∧
          ((bs.foldl (stepB nc ctr d1 br c r) acc).1 = true → acc.1 = true) ∧
          ((bs.foldl (stepB nc ctr d1 br c r) acc).1 = true →
            (bs.foldl (stepB nc ctr d1 br c r) acc).2.length + 4 ≤ nc →
            ∀ b ∈ bs, ∀ x ∈ (br b).items, InCell d1 c (pos x) → InBox r (pos x) →
              ∃ e ∈ (bs.foldl (stepB nc ctr d1 br c r) acc).2, x ∈ e.2.items) := by
        intro bs
        induction bs with
        | nil =>
          intro acc _
          refine ⟨fun e h => h, le_refl _, fun e h => Or.inl h, by simp, fun h => h, ?_⟩
          intro _ _ b hb; simp at hb
        | cons b bs ihb =>
          intro acc hbs
          have hb8 := hbs b (by simp)
          have hrest := ihb (stepB nc ctr d1 br c r acc b) (fun b' h => hbs b' (by simp [h]))
          obtain ⟨R, hR⟩ : ∃ R, bs.foldl (stepB nc ctr d1 br c r)
            (stepB nc ctr d1 br c r acc b) = R := ⟨_, rfl⟩
          rw [List.foldl_cons, hR]
          rw [hR] at hrest
          obtain ⟨r1, r2, r3, r4, r5, r6⟩ := hrest
          -- the step
          have hstep : (∀ e ∈ acc.2, e ∈ (stepB nc ctr d1 br c r acc b).2) ∧
              acc.2.length ≤ (stepB nc ctr d1 br c r acc b).2.length ∧
              (∀ e ∈ (stepB nc ctr d1 br c r acc b).2,
                e ∈ acc.2 ∨ LeafOf e.2 (.branch d1 nb br)) ∧
              (stepB nc ctr d1 br c r acc b).2.length ≤ acc.2.length + leafCount (br b) ∧
              ((stepB nc ctr d1 br c r acc b).1 = true → acc.1 = true) ∧
              ((stepB nc ctr d1 br c r acc b).1 = true →
                (stepB nc ctr d1 br c r acc b).2.length + 4 ≤ nc →
                ∀ x ∈ (br b).items, InCell d1 c (pos x) → InBox r (pos x) →
                  ∃ e ∈ (stepB nc ctr d1 br c r acc b).2, x ∈ e.2.items) := by
            obtain ⟨hWb, hQ⟩ := H b hb8
            unfold stepB
            by_cases ha : acc.1 = true
            · rw [if_pos ha]
              by_cases hm : meets r c b = true
              · rw [if_pos hm]
                cases hi : intersectRect r (subBox c d1 b) with
                | none =>
                  exact ⟨fun e h => h, le_refl _, fun e h => Or.inl h, by simp,
                    fun _ => ha, fun h => by simp at h⟩
                | some r' =>
                  have S := ih b (d1 + 1) (subCenter c d1 b) r' acc.2 hWb
                  refine ⟨S.sub, S.len, ?_, S.few, fun _ => ha, ?_⟩
                  · intro e he
                    rcases S.new e he with h | h
                    · exact Or.inl h
                    · exact Or.inr (.sub d1 nb br b _ hb8 h)
                  · intro h1 h2 x hx hc hbx
                    refine S.all h1 h2 x hx ⟨?_, ?_⟩
                    · have := hc.sub; rw [hQ x hx] at this; exact this
                    · have := inBox_subBox hc
                      rw [hQ x hx] at this
                      exact intersect_inBox hi hbx this
              · rw [if_neg hm]
                refine ⟨fun e h => h, le_refl _, fun e h => Or.inl h, by simp,
                  fun h => h, ?_⟩
                intro _ _ x hx hc hbx
                exfalso
                apply hm
                have := meets_of (c := c) hbx
                rw [hQ x hx] at this
                exact this
            · rw [if_neg ha]
              exact ⟨fun e h => h, le_refl _, fun e h => Or.inl h, by simp,
                fun h => h, fun h => absurd h ha⟩
          obtain ⟨s1, s2, s3, s4, s5, s6⟩ := hstep
          refine ⟨fun e h => r1 e (s1 e h), le_trans s2 r2, ?_, ?_, fun h => s5 (r5 h), ?_⟩
          · intro e he
            rcases r3 e he with h | h
            · exact s3 e h
            · exact Or.inr h
          · rw [List.map_cons, List.sum_cons]; omega
          · intro h1 h2 b' hb' x hx hc hbx
            rcases List.mem_cons.1 hb' with rfl | hb'
            · obtain ⟨e, he, hxe⟩ := s6 (r5 h1) (by omega) x hx hc hbx
              exact ⟨e, r1 e he, hxe⟩
            · exact r6 h1 h2 b' hb' x hx hc hbx
      obtain ⟨l1, l2, l3, l4, l5, l6⟩ := hloop order (true, L) (by decide)
      refine ⟨l1, l2, l3, ?_, ?_⟩
      · rw [sum_order] at l4; exact l4
      · intro h1 h2 x hx hP
        rw [items_branch] at hx
        obtain ⟨b, hb, hxb⟩ := mem_total.1 hx
        exact l6 h1 h2 b (mem_order b hb) x hxb hP.1 hP.2

/-! ### Searches that are never given up -/

/-- The state of the box during the search of the box `R`. -/
def BoxAt (R r : Box α) (d : Nat) (c : Fin 3 → α) : Prop :=
  ∀ i, 0 < r.len i ∧ c i - half d < r.lo i + r.len i ∧ r.lo i < c i + half d ∧
    (r.lo i = R.lo i ∨ r.lo i = c i - half d) ∧ ∃ k : Nat, 0 < k ∧ c i = (k : α) / 2 ^ (d + 1)

theorem BoxAt.sub {R r : Box α} {d : Nat} {c : Fin 3 → α}
    (hgen : ∀ i (k j : Nat), R.lo i ≠ (k : α) / 2 ^ j) (h : BoxAt R r d c) {b : Nat}
    (hm : meets r c b = true) :
    ∃ r', intersectRect r (subBox c d b) = some r' ∧ BoxAt R r' (d + 1) (subCenter c d b) := by
  unfold meets at hm
  rw [decide_eq_true_eq] at hm
  have hh := half_pos (α := α) d
  -- lengths are positive
  have hpos : ∀ i, max (r.lo i) ((subBox c d b).lo i) <
      min (r.lo i + r.len i) ((subBox c d b).lo i + (subBox c d b).len i) := by
    intro i
    obtain ⟨h1, h2, h3, h4, k, _, h5⟩ := h i
    have hmi := hm i
    simp only [subBox]
    by_cases hb : bit b i = true
    · rw [if_pos hb] at hmi
      simp only [hb, if_true]
      refine max_lt (lt_min (by linarith) (by linarith)) (lt_min (by linarith) (by linarith))
    · rw [if_neg hb] at hmi
      have hne : r.lo i ≠ c i := by
        rcases h4 with e | e
        · rw [e, h5]; exact hgen i _ _
        · rw [e]; intro h; linarith
      have hlt : r.lo i < c i := lt_of_le_of_ne (not_lt.1 hmi) hne
      simp only [Bool.not_eq_true] at hb
      simp only [hb, Bool.false_eq_true, if_false]
      refine max_lt (lt_min (by linarith) (by linarith)) (lt_min (by linarith) (by linarith))
  cases hr : intersectRect r (subBox c d b) with
  | none =>
    exfalso
    have key : ∀ i, ¬ ((if r.len i + r.lo i < (subBox c d b).len i + (subBox c d b).lo i
        then r.len i + r.lo i else (subBox c d b).len i + (subBox c d b).lo i) -
        (if r.lo i > (subBox c d b).lo i then r.lo i else (subBox c d b).lo i) ≤ 0) := by
      intro i
      have := hpos i
      have e1 : (if r.lo i > (subBox c d b).lo i then r.lo i else (subBox c d b).lo i) =
          max (r.lo i) ((subBox c d b).lo i) := by
        by_cases hx : r.lo i > (subBox c d b).lo i
        · rw [if_pos hx, max_eq_left hx.le]
        · rw [if_neg hx, max_eq_right (not_lt.1 hx)]
      have e2 : (if r.len i + r.lo i < (subBox c d b).len i + (subBox c d b).lo i
          then r.len i + r.lo i else (subBox c d b).len i + (subBox c d b).lo i) =
          min (r.lo i + r.len i) ((subBox c d b).lo i + (subBox c d b).len i) := by
        rw [add_comm (r.len i), add_comm ((subBox c d b).len i)]
        by_cases hx : r.lo i + r.len i < (subBox c d b).lo i + (subBox c d b).len i
        · rw [if_pos hx, min_eq_left hx.le]
        · rw [if_neg hx, min_eq_right (not_lt.1 hx)]
      rw [e1, e2]; linarith
    unfold intersectRect at hr
    dsimp only at hr
    rw [if_neg (by
      rintro (h | h | h)
      · exact key 0 h
      · exact key 1 h
      · exact key 2 h)] at hr
    exact absurd hr (by simp)
  | some r' =>
    refine ⟨r', rfl, ?_⟩
    intro i
    obtain ⟨e1, e2⟩ := intersect_some hr i
    have hp := hpos i
    rw [← e1, ← e2] at hp
    obtain ⟨h1, h2, h3, h4, k, hk0, h5⟩ := h i
    have hmi := hm i
    have hc' : ∃ k : Nat, 0 < k ∧ subCenter c d b i = (k : α) / 2 ^ (d + 1 + 1) := by
      have h2' : (2 : α) ^ d ≠ 0 := by positivity
      by_cases hb : bit b i = true
      · refine ⟨2 * k + 1, by omega, ?_⟩
        simp only [subCenter, hb, if_true, h5, half]
        push_cast
        rw [pow_succ, pow_succ]; field_simp; ring
      · refine ⟨2 * k - 1, by omega, ?_⟩
        simp only [Bool.not_eq_true] at hb
        simp only [subCenter, hb, Bool.false_eq_true, if_false, h5, half]
        rw [Nat.cast_sub (by omega)]
        push_cast
        rw [pow_succ, pow_succ]; field_simp; ring
    refine ⟨by linarith, ?_, ?_, ?_, hc'⟩
    · rw [e2, half_succ]
      simp only [subBox, subCenter]
      by_cases hb : bit b i = true
      · rw [if_pos hb] at hmi
        simp only [hb, if_true]
        exact lt_min (by linarith) (by linarith)
      · simp only [Bool.not_eq_true] at hb
        simp only [hb, Bool.false_eq_true, if_false]
        exact lt_min (by linarith) (by linarith)
    · rw [e1, half_succ]
      simp only [subBox, subCenter]
      by_cases hb : bit b i = true
      · rw [if_pos hb] at hmi
        simp only [hb, if_true]
        exact max_lt (by linarith) (by linarith)
      · rw [if_neg hb] at hmi
        have hne : r.lo i ≠ c i := by
          rcases h4 with e | e
          · rw [e, h5]; exact hgen i _ _
          · rw [e]; intro h; linarith
        have hlt : r.lo i < c i := lt_of_le_of_ne (not_lt.1 hmi) hne
        simp only [Bool.not_eq_true] at hb
        simp only [hb, Bool.false_eq_true, if_false]
        exact max_lt (by linarith) (by linarith)
    · rw [e1, half_succ]
      simp only [subBox, subCenter]
      by_cases hb : bit b i = true
      · simp only [hb, if_true]
        rcases le_total (r.lo i) (c i) with hx | hx
        · right; rw [max_eq_right (by linarith)]; ring
        · rcases h4 with e | e
          · left; rw [max_eq_left (by linarith), e]
          · exfalso; linarith
      · simp only [Bool.not_eq_true] at hb
        simp only [hb, Bool.false_eq_true, if_false]
        rcases le_total (r.lo i) (c i - half d) with hx | hx
        · right; rw [max_eq_right (by linarith)]; ring
        · rcases h4 with e | e
          · left; rw [max_eq_left (by linarith), e]
          · right; rw [max_eq_left (by linarith), e]; ring

theorem listRec_true (nc : Nat) (ctr : Fin 3 → α) {R : Box α}
    (hgen : ∀ i (k j : Nat), R.lo i ≠ (k : α) / 2 ^ j) :
    ∀ (q : Oct) (d : Nat) (c : Fin 3 → α) (r : Box α) (L : List (α × Oct)),
      WF nv pos q d c → BoxAt R r d c → (listRec nc ctr q c r L).1 = true := by
  intro q
  induction q with
  | leaf d1 cap l =>
    intro d c r L _ _
    unfold listRec
    split
    · rfl
    · split <;> rfl
  | branch d1 nb br ih =>
    intro d c r L hW hB
    unfold WF at hW
    obtain ⟨rfl, hd, hnb, htot, H⟩ := hW
    rw [listRec_branch]
    split
    · rfl
    · have hloop : ∀ (bs : List Nat) (acc : Bool × List (α × Oct)), (∀ b ∈ bs, b < 8) →
          acc.1 = true → (bs.foldl (stepB nc ctr d1 br c r) acc).1 = true := by
        intro bs
        induction bs with
        | nil => intro acc _ h; exact h
        | cons b bs ihb =>
          intro acc hbs h
          rw [List.foldl_cons]
          refine ihb _ (fun b' h => hbs b' (by simp [h])) ?_
          unfold stepB
          rw [if_pos h]
          by_cases hm : meets r c b = true
          · rw [if_pos hm]
            obtain ⟨r', e, hB'⟩ := hB.sub hgen hm
            rw [e]
            exact ih b _ _ _ _ (H b (hbs b (by simp))).1 hB'
          · rw [if_neg hm]; exact h
      exact hloop order _ (by decide) rfl

/-! ### Changing the position of a vertex -/

theorem WF.congr {pos' : Nat → Fin 3 → α} : ∀ (q : Oct) (d : Nat) (c : Fin 3 → α),
    (∀ x ∈ q.items, pos' x = pos x) → WF nv pos q d c → WF nv pos' q d c := by
  intro q
  induction q with
  | leaf d1 cap l => intro d c _ h; unfold WF at *; exact h
  | branch d1 nb br ih =>
    intro d c he h
    unfold WF at h
    obtain ⟨h1, h2, h3, h4, H⟩ := h
    rw [items_branch] at he
    unfold WF
    refine ⟨h1, h2, h3, h4, ?_⟩
    intro b hb
    obtain ⟨hW, hQ⟩ := H b hb
    refine ⟨ih b _ _ (fun x hx => he x (mem_total.2 ⟨b, hb, hx⟩)) hW, ?_⟩
    intro x hx
    rw [he x (mem_total.2 ⟨b, hb, hx⟩)]
    exact hQ x hx

end Mmg.Oct
