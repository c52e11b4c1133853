/-
Lemmas for the scaling of a mesh.
-/
import Verif.ScaleModel
import Mathlib.Tactic.Linarith
import Mathlib.Tactic.FieldSimp
import Mathlib.Tactic.Ring
import Mathlib.Tactic.NormNum
import Mathlib.Tactic.Positivity

set_option linter.unusedSectionVars false

namespace Mmg.Scale

theorem loop_inv {σ : Type} {body : Nat → σ → σ} (I : Nat → σ → Prop) {s : σ} (h0 : I 0 s) {n : Nat}
    (hs : ∀ k s, k < n → I k s → I (k + 1) (body (k + 1) s)) : I n (loop body n s) := by
  induction n with
  | zero => exact h0
  | succ n ih => exact hs n _ (Nat.lt_succ_self _) (ih fun k s hk => hs k s (Nat.lt_succ_of_lt hk))

/-- A loop that treats entry `k` at step `k`. -/
theorem loop_upd {β : Type} (g : Nat → β → β) (n : Nat) (m : Nat → β) (j : Nat) :
    loop (fun k m => upd m k (g k (m k))) n m j = if 1 ≤ j ∧ j ≤ n then g j (m j) else m j := by
  induction n with
  | zero => rw [if_neg (by omega)]; rfl
  | succ n ih =>
    show upd _ (n + 1) _ j = _
    unfold upd
    by_cases hj : j = n + 1
    · subst hj
      rw [if_pos rfl, if_pos (by omega)]
      have : loop (fun k m => upd m k (g k (m k))) n m (n + 1) = m (n + 1) := by
        rw [ih, if_neg (by omega)]
      exact congrArg _ this
    · rw [if_neg hj]
      refine ih.trans ?_
      by_cases h : 1 ≤ j ∧ j ≤ n
      · rw [if_pos h, if_pos (by omega)]
      · rw [if_neg h, if_neg (by omega)]

theorem loop_upd_if {β : Type} (p : Nat → Bool) (g : Nat → β → β) (n : Nat) (m : Nat → β) (j : Nat) :
    loop (fun k m => if p k then upd m k (g k (m k)) else m) n m j =
      if 1 ≤ j ∧ j ≤ n ∧ p j then g j (m j) else m j := by
  have e : (fun k (m : Nat → β) => if p k then upd m k (g k (m k)) else m) =
      fun k m => upd m k ((fun k x => if p k then g k x else x) k (m k)) := by
    funext k m
    by_cases h : p k
    · simp [h]
    · simp only [h, Bool.false_eq_true, if_false]
      funext i
      unfold upd
      split_ifs with hi
      · rw [hi]
      · rfl
  rw [e, loop_upd (fun k x => if p k then g k x else x)]
  by_cases h : 1 ≤ j ∧ j ≤ n
  · by_cases hp : p j <;> simp [h, hp]
  · rw [if_neg h, if_neg (fun hh => h ⟨hh.1, hh.2.1⟩)]

theorem block_unique {k j q size : Nat} (h : k * size ≤ q ∧ q < k * size + size)
    (h' : j * size ≤ q ∧ q < j * size + size) : k = j := by
  rcases Nat.lt_trichotomy k j with hl | hl | hl
  · have := Nat.mul_le_mul_right size (show k + 1 ≤ j from hl)
    rw [Nat.add_mul, Nat.one_mul] at this
    omega
  · exact hl
  · have := Nat.mul_le_mul_right size (show j + 1 ≤ k from hl)
    rw [Nat.add_mul, Nat.one_mul] at this
    omega

section
variable {K : Type} [Field K] [LinearOrder K]

theorem mulValid_spec (s : St K) (size : Nat) (d : K) (m : Nat → K) {k i : Nat} (hk : 1 ≤ k)
    (hn : k ≤ s.np) (hv : s.valid k) (hi : i < size) :
    mulValid s size d m (k * size + i) = m (k * size + i) * d := by
  unfold mulValid
  have key : ∀ n, loop (fun k m => if s.valid k then
      fun j => if k * size ≤ j ∧ j < k * size + size then m j * d else m j else m) n m
        (k * size + i) = if k ≤ n then m (k * size + i) * d else m (k * size + i) := by
    intro n
    induction n with
    | zero => rw [if_neg (by omega)]; rfl
    | succ n ih =>
      simp only [loop]
      by_cases hkn : k = n + 1
      · subst hkn
        rw [if_pos hv, if_pos (by omega), ih, if_neg (by omega), if_pos (le_refl _)]
      · have hother : ¬ ((n + 1) * size ≤ k * size + i ∧ k * size + i < (n + 1) * size + size) :=
          fun h => hkn (block_unique (k := k) (by omega) h)
        have hle : k ≤ n ↔ k ≤ n + 1 := by omega
        by_cases h1 : s.valid (n + 1)
        · rw [if_pos h1, if_neg hother, ih]; simp only [hle]
        · rw [if_neg h1, ih]; simp only [hle]
  rw [key, if_pos hn]

variable [IsStrictOrderedRing K]

theorem cmin_eq (a b : K) : cmin a b = min a b := by
  unfold cmin
  split_ifs with h
  · rw [min_eq_left h.le]
  · rw [min_eq_right (not_lt.1 h)]

theorem cmax_eq (a b : K) : cmax a b = max a b := by
  unfold cmax
  split_ifs with h
  · rw [max_eq_left h.le]
  · rw [max_eq_right (not_lt.1 h)]

/-- The corners enclose the valid points. -/
theorem box_loop (s : St K) (b : (Nat → K) × (Nat → K)) (n : Nat) {i : Nat} (hi : i < s.dim) :
    ∀ k, 1 ≤ k → k ≤ n → s.valid k →
      (loop (boxPoint s) n b).1 i ≤ s.c k i ∧ s.c k i ≤ (loop (boxPoint s) n b).2 i := by
  refine loop_inv (fun n (r : (Nat → K) × (Nat → K)) => ∀ k, 1 ≤ k → k ≤ n → s.valid k →
    r.1 i ≤ s.c k i ∧ s.c k i ≤ r.2 i) (by intro k h1 h2; omega) ?_
  intro n r _ ih k h1 h2 hv
  have mono : (boxPoint s (n + 1) r).1 i ≤ r.1 i ∧ r.2 i ≤ (boxPoint s (n + 1) r).2 i := by
    unfold boxPoint
    split_ifs with h
    · dsimp only
      constructor
      · split_ifs with h'
        · exact h'.2.le
        · exact le_refl _
      · split_ifs with h'
        · exact h'.2.le
        · exact le_refl _
    · exact ⟨le_refl _, le_refl _⟩
  by_cases hk : k = n + 1
  · subst hk
    unfold boxPoint
    rw [if_pos hv]
    dsimp only
    constructor
    · split_ifs with h'
      · exact le_refl _
      · exact not_lt.1 fun hh => h' ⟨hi, hh⟩
    · split_ifs with h'
      · exact le_refl _
      · exact not_lt.1 fun hh => h' ⟨hi, hh⟩
  · obtain ⟨h3, h4⟩ := ih k h1 (by omega) hv
    exact ⟨mono.1.trans h3, h4.trans mono.2⟩

theorem fold_delta (f : Nat → K) (l : List Nat) (d0 : K) :
    d0 ≤ l.foldl (fun d i => let dd := f i; if d < dd then dd else d) d0 ∧
      ∀ i ∈ l, f i ≤ l.foldl (fun d i => let dd := f i; if d < dd then dd else d) d0 := by
  induction l generalizing d0 with
  | nil => simp
  | cons a l ih =>
    simp only [List.foldl_cons]
    obtain ⟨h1, h2⟩ := ih (if d0 < f a then f a else d0)
    have h3 : d0 ≤ (if d0 < f a then f a else d0) ∧ f a ≤ (if d0 < f a then f a else d0) := by
      split_ifs with h
      · exact ⟨h.le, le_refl _⟩
      · exact ⟨le_refl _, not_lt.1 h⟩
    refine ⟨h3.1.trans h1, fun i hi => ?_⟩
    rcases List.mem_cons.1 hi with rfl | hi
    · exact h3.2.trans h1
    · exact h2 i hi

/-- What a successful computation of the bounding box gives. -/
theorem boundingBox_spec {P : Consts K} {s s' : St K} (h : boundingBox P s = (true, s')) :
    P.epsd ≤ s'.info.delta ∧
    (∀ k, 1 ≤ k → k ≤ s.np → s.valid k → ∀ i < s.dim,
      s'.info.min i ≤ s.c k i ∧ s.c k i - s'.info.min i ≤ s'.info.delta) ∧
    s' = { s with info := { s.info with min := s'.info.min, max := s'.info.max,
                                        delta := s'.info.delta } } := by
  unfold boundingBox at h
  dsimp only at h
  have hb : ∀ i < s.dim, _ := fun i hi => box_loop s
    (fun i => if i < s.dim then P.dblMax else s.info.min i,
      fun i => if i < s.dim then - P.dblMax else s.info.max i) s.np (i := i) hi
  generalize loop (boxPoint s) s.np (fun i => if i < s.dim then P.dblMax else s.info.min i,
      fun i => if i < s.dim then - P.dblMax else s.info.max i) = b at h hb
  split at h
  · simp at h
  rename_i hd
  injection h with _ h
  subst h
  refine ⟨not_lt.1 hd, ?_, rfl⟩
  intro k h1 h2 hv i hi
  dsimp only
  obtain ⟨h3, h4⟩ := hb i hi k h1 h2 hv
  refine ⟨h3, le_trans (sub_le_sub_right h4 _) ?_⟩
  exact (fold_delta (fun i => b.2 i - b.1 i) (List.range s.dim) 0).2 i (List.mem_range.2 hi)

/-- `s'` is `s` scaled by `d` around `s'.info.min`. -/
structure Scaled (s s' : St K) (d : K) : Prop where
  dim : s'.dim = s.dim
  np : s'.np = s.np
  valid : s'.valid = s.valid
  delta : s'.info.delta * d = 1
  c : ∀ k, 1 ≤ k → k ≤ s.np → s.valid k → ∀ i < s.dim, s'.c k i = d * (s.c k i - s'.info.min i)
  box : ∀ k, 1 ≤ k → k ≤ s.np → s.valid k → ∀ i < s.dim, 0 ≤ s'.c k i ∧ s'.c k i ≤ 1
  hausd : s'.info.hausd = s.info.hausd * d
  ls : s'.info.ls = s.info.ls * d
  hsiz : s'.info.hsiz = s.info.hsiz * d
  par : s'.info.par = s.info.par.map (scalePar d)
  sethmin : s'.info.sethmin = s.info.sethmin
  sethmax : s'.info.sethmax = s.info.sethmax
  hmin : s.info.sethmin = true → s'.info.hmin = s.info.hmin * d ∧ 0 ≤ s.info.hmin
  hmax : s.info.sethmax = true → s'.info.hmax = s.info.hmax * d ∧ 0 ≤ s.info.hmax
  sol : s'.sol = s.sol.map (scaleSol s.np d)

theorem defaultBounds_frame (f : Info K) (a b : Bool) :
    (defaultBounds f a b).2 = { f with hmin := (defaultBounds f a b).2.hmin,
                                       hmax := (defaultBounds f a b).2.hmax } ∧
    (a = true → (defaultBounds f a b).2.hmin = f.hmin) ∧
    (b = true → (defaultBounds f a b).2.hmax = f.hmax) := by
  unfold defaultBounds
  dsimp only
  cases a <;> cases b <;> simp <;> split_ifs <;> simp

theorem checkSetted_iff (f : Info K) : checkSetted f = true ↔
    (f.sethmin = true → 0 ≤ f.hmin) ∧ (f.sethmax = true → 0 ≤ f.hmax) := by
  unfold checkSetted
  split_ifs with h1 h2
  · simp only [false_iff, not_and]
    intro h; exact absurd (h h1.2) (not_le.2 h1.1)
  · simp only [false_iff, not_and]
    intro _ h; exact absurd (h h2.2) (not_le.2 h2.1)
  · simp only [true_iff]
    exact ⟨fun h => not_lt.1 fun hh => h1 ⟨hh, h⟩, fun h => not_lt.1 fun hh => h2 ⟨hh, h⟩⟩

theorem defaultStep_frame (n : Nat) (f : Info K) :
    (defaultStep n f).2 = { f with hmin := (defaultStep n f).2.hmin,
                                   hmax := (defaultStep n f).2.hmax } ∧
    (f.sethmin = true → (defaultStep n f).2.hmin = f.hmin) ∧
    (f.sethmax = true → (defaultStep n f).2.hmax = f.hmax) := by
  unfold defaultStep
  split
  · exact defaultBounds_frame f _ _
  · exact ⟨rfl, fun _ => rfl, fun _ => rfl⟩

theorem scaleCoord_spec (s : St K) (d : K) {k i : Nat} (h1 : 1 ≤ k) (h2 : k ≤ s.np)
    (hv : s.valid k) (hi : i < s.dim) : scaleCoord s d k i = d * (s.c k i - s.info.min i) := by
  unfold scaleCoord
  rw [loop_upd_if s.valid (fun _ (x : Nat → K) =>
        fun i => if i < s.dim then d * (x i - s.info.min i) else x i), if_pos ⟨h1, h2, hv⟩]
  exact if_pos hi

theorem scaleMeshAndSol_spec {P : Consts K} (hP : 0 < P.epsd) {s s' : St K} {dd : K}
    (h : scaleMeshAndSol P s = (true, s', dd)) :
    Scaled s s' dd ∧ 0 < dd ∧ s'.met = s.met ∧ s'.flag = s.flag ∧ s'.base = s.base ∧
      s'.warn = s.warn := by
  unfold scaleMeshAndSol at h
  rcases hb : boundingBox P s with ⟨ok, s1⟩
  rw [hb] at h
  dsimp only at h
  cases ok with
  | false => simp at h
  | true =>
    obtain ⟨hd, hbox, hs1⟩ := boundingBox_spec hb
    generalize s1.info.min = mn at *
    generalize s1.info.max = mx at *
    generalize s1.info.delta = dl at *
    subst hs1
    have hpos : 0 < dl := lt_of_lt_of_le hP hd
    simp only [Bool.not_true, Bool.false_eq_true, if_false] at h
    split at h
    · simp at h
    rename_i hset
    rw [Bool.not_eq_true', Bool.not_eq_false, checkSetted_iff] at hset
    split at h
    · simp at h
    injection h with _ h
    injection h with h1 h2
    have hfr := defaultStep_frame (metNp s.met) (scaleBounds dd (scaleParams dd
      { s.info with min := mn, max := mx, delta := dl }))
    rw [h2] at h1
    generalize hf : (defaultStep (metNp s.met) (scaleBounds dd (scaleParams dd
      { s.info with min := mn, max := mx, delta := dl }))).2 = f at h1 hfr
    obtain ⟨f1, f2, f3⟩ := hfr
    subst h1
    have hdp : 0 < dd := by rw [← h2]; positivity
    have hdd : dl * dd = 1 := by rw [← h2]; field_simp
    have hmin : f.min = mn := by rw [f1]; rfl
    refine ⟨⟨rfl, rfl, rfl, ?_, ?_, ?_, ?_, ?_, ?_, ?_, ?_, ?_, ?_, ?_, rfl⟩, hdp, rfl, rfl, rfl, rfl⟩
    · rw [f1]; exact hdd
    · intro k k1 k2 hv i hi
      rw [hmin]
      exact scaleCoord_spec _ _ k1 k2 hv hi
    · intro k k1 k2 hv i hi
      have e := scaleCoord_spec { s with info := { s.info with min := mn, max := mx, delta := dl } }
        dd k1 k2 hv hi
      dsimp only at e ⊢
      rw [e]
      obtain ⟨ha, hb⟩ := hbox k k1 k2 hv i hi
      refine ⟨mul_nonneg hdp.le (sub_nonneg.2 ha), ?_⟩
      calc dd * (s.c k i - mn i) ≤ dd * dl := mul_le_mul_of_nonneg_left hb hdp.le
        _ = 1 := by rw [mul_comm]; exact hdd
    · rw [f1]; rfl
    · rw [f1]; rfl
    · rw [f1]; rfl
    · rw [f1]; rfl
    · rw [f1]; rfl
    · rw [f1]; rfl
    · intro hs
      refine ⟨?_, hset.1 hs⟩
      refine (f2 hs).trans ?_
      exact if_pos hs
    · intro hs
      refine ⟨?_, hset.2 hs⟩
      refine (f3 hs).trans ?_
      exact if_pos hs

/-- What the treatment of the metric leaves alone. -/
structure Frame (s s' : St K) : Prop where
  dim : s'.dim = s.dim
  np : s'.np = s.np
  valid : s'.valid = s.valid
  c : s'.c = s.c
  sol : s'.sol = s.sol
  info : s'.info = { s.info with hmin := s'.info.hmin, hmax := s'.info.hmax }
  hmin : s.info.sethmin = true → s'.info.hmin = s.info.hmin
  hmax : s.info.sethmax = true → s'.info.hmax = s.info.hmax
  met : (s'.met.map fun q => (q.np, q.size, q.type, q.alloc)) =
    s.met.map fun q => (q.np, q.size, q.type, q.alloc)

theorem Frame.refl (s : St K) : Frame s s := ⟨rfl, rfl, rfl, rfl, rfl, rfl, fun _ => rfl, fun _ => rfl, rfl⟩

/-- The extremal sizes bound the sizes of the points that carry one. -/
theorem extremal_loop (s : St K) (m : Nat → K) (a : K) (n : Nat) :
    (loop (extremal s m) n (a, 0)).1 ≤ a ∧ 0 ≤ (loop (extremal s m) n (a, 0)).2 ∧
    (∀ k, 1 ≤ k → k ≤ n → s.valid k → s.base ≤ s.flag k →
      (loop (extremal s m) n (a, 0)).1 ≤ m k ∧ m k ≤ (loop (extremal s m) n (a, 0)).2) ∧
    (0 < a → (∀ k, 1 ≤ k → k ≤ n → s.valid k → 0 < m k) → 0 < (loop (extremal s m) n (a, 0)).1) := by
  induction n with
  | zero => exact ⟨le_refl _, le_refl _, fun k h1 h2 => by omega, fun h _ => h⟩
  | succ n ih =>
    obtain ⟨i1, i2, i3, i4⟩ := ih
    simp only [loop]
    generalize loop (extremal s m) n (a, 0) = r at *
    by_cases hc : ¬ s.valid (n + 1) = true ∨ s.flag (n + 1) < s.base
    · have e : extremal s m (n + 1) r = r := if_pos hc
      rw [e]
      refine ⟨i1, i2, ?_, ?_⟩
      · intro k h1 h2 hv hf
        by_cases hk : k = n + 1
        · subst hk; exact absurd hc (by rw [not_or]; exact ⟨not_not.2 hv, not_lt.2 hf⟩)
        · exact i3 k h1 (by omega) hv hf
      · exact fun h h' => i4 h fun k h1 h2 => h' k h1 (by omega)
    · have e : extremal s m (n + 1) r = (cmin r.1 (m (n + 1)), cmax r.2 (m (n + 1))) := if_neg hc
      rw [not_or, not_not] at hc
      rw [e, cmin_eq, cmax_eq]
      refine ⟨(min_le_left _ _).trans i1, i2.trans (le_max_left _ _), ?_, ?_⟩
      · intro k h1 h2 hv hf
        by_cases hk : k = n + 1
        · subst hk; exact ⟨min_le_right _ _, le_max_right _ _⟩
        · obtain ⟨h3, h4⟩ := i3 k h1 (by omega) hv hf
          exact ⟨(min_le_left _ _).trans h3, h4.trans (le_max_left _ _)⟩
      · intro h h'
        exact lt_min (i4 h fun k h1 h2 => h' k h1 (by omega)) (h' (n + 1) (by omega) (le_refl _) hc.1)

/-- The bounds used by the truncation. -/
def autoBounds (P : Consts K) (s : St K) (q : Sol K) : Info K :=
  let h := if !s.info.sethmin || !s.info.sethmax then
      loop (extremal s q.m) s.np (P.fltMax, 0) else (P.fltMax, 0)
  let f1 := if s.info.sethmin then s.info else { s.info with hmin := h.1 }
  let f2 := if f1.sethmax then f1 else { f1 with hmax := h.2 }
  checkBounds f2

theorem truncIso_eq (P : Consts K) (s : St K) (q : Sol K) (hs : checkSetted s.info = true) :
    truncIso P s q = (true, { s with
      info := autoBounds P s q
      met := some { q with m := fun k => if 1 ≤ k ∧ k ≤ s.np then
        (if s.flag k < s.base then (autoBounds P s q).hmax
          else min (autoBounds P s q).hmax (max (autoBounds P s q).hmin (q.m k))) else q.m k } }) := by
  unfold truncIso
  rw [hs]
  simp only [Bool.not_true, Bool.false_eq_true, if_false]
  have e : ∀ f : Info K, loop (fun k m => upd m k
      (if s.flag k < s.base then f.hmax else cmin f.hmax (cmax f.hmin (m k)))) s.np q.m =
      fun k => if 1 ≤ k ∧ k ≤ s.np then
        (if s.flag k < s.base then f.hmax else min f.hmax (max f.hmin (q.m k))) else q.m k := by
    intro f
    funext k
    rw [loop_upd (fun k x => if s.flag k < s.base then f.hmax else cmin f.hmax (cmax f.hmin x))]
    simp only [cmin_eq, cmax_eq]
  rw [e]
  rfl

theorem autoBounds_frame (P : Consts K) (s : St K) (q : Sol K) :
    autoBounds P s q = { s.info with hmin := (autoBounds P s q).hmin, hmax := (autoBounds P s q).hmax } ∧
    (s.info.sethmin = true → (autoBounds P s q).hmin = s.info.hmin) ∧
    (s.info.sethmax = true → (autoBounds P s q).hmax = s.info.hmax) := by
  unfold autoBounds checkBounds
  rcases h1 : s.info.sethmin with _ | _ <;> rcases h2 : s.info.sethmax with _ | _ <;> simp [h1, h2]
  generalize s.info = f at *
  cases f
  simp_all

/-- The bounds are ordered, positive and enclose the sizes that the user did not want truncated. -/
theorem autoBounds_spec {P : Consts K} {s : St K} {q : Sol K} (hs : checkSetted s.info = true)
    (hP : 0 < P.fltMax) (hpos : ∀ k, 1 ≤ k → k ≤ s.np → s.valid k → 0 < q.m k) :
    (¬ (s.info.sethmin = true ∧ s.info.sethmax = true) →
      (autoBounds P s q).hmin ≤ (autoBounds P s q).hmax) ∧
    (∀ k, 1 ≤ k → k ≤ s.np → s.valid k → s.base ≤ s.flag k →
      (s.info.sethmax = false → max (autoBounds P s q).hmin (q.m k) ≤ (autoBounds P s q).hmax) ∧
      (s.info.sethmin = false → s.info.sethmax = false → (autoBounds P s q).hmin ≤ q.m k) ∧
      (s.info.sethmin = false → s.info.sethmax = true →
        (autoBounds P s q).hmin ≤ min (q.m k) s.info.hmax)) := by
  rw [checkSetted_iff] at hs
  obtain ⟨e1, e2, e3, e4⟩ := extremal_loop s q.m P.fltMax s.np
  have e5 := e4 hP hpos
  unfold autoBounds checkBounds
  generalize loop (extremal s q.m) s.np (P.fltMax, 0) = r at *
  rcases h1 : s.info.sethmin with _ | _ <;> rcases h2 : s.info.sethmax with _ | _ <;>
    simp only [h1, h2, Bool.not_true, Bool.not_false, Bool.or_self, Bool.or_true,
      Bool.or_false, Bool.false_eq_true, if_true, if_false, not_true, and_self, and_true, and_false,
      not_false_eq_true, true_implies, false_implies, implies_true, true_and, reduceCtorEq, gt_iff_lt]
  · constructor
    · split_ifs <;> linarith
    · intro k k1 k2 hv hf
      obtain ⟨h3, h4⟩ := e3 k k1 k2 hv hf
      have := hpos k k1 k2 hv
      constructor
      · apply max_le <;> split_ifs <;> linarith
      · split_ifs <;> linarith
  · have hm := hs.2 h2
    constructor
    · split_ifs <;> linarith
    · intro k k1 k2 hv hf
      obtain ⟨h3, h4⟩ := e3 k k1 k2 hv hf
      have := hpos k k1 k2 hv
      apply le_min <;> split_ifs <;> linarith
  · have hm := hs.1 h1
    constructor
    · split_ifs <;> linarith
    · intro k k1 k2 hv hf
      obtain ⟨h3, h4⟩ := e3 k k1 k2 hv hf
      have := hpos k k1 k2 hv
      apply max_le <;> split_ifs <;> linarith

/-- The loop of the scalar metric. -/
theorem scalar_loop (s : St K) (base : Nat) (dd : K) (q : Sol K) (n : Nat) :
    let l := loop (scalarBody s base dd) n ⟨true, s.flag, q.m, s.warn⟩
    (l.run = true → (∀ j, l.flag j = if 1 ≤ j ∧ j ≤ n ∧ s.valid j then base else s.flag j) ∧
      (∀ j, l.m j = if 1 ≤ j ∧ j ≤ n ∧ s.valid j then q.m j * dd else q.m j) ∧ l.warn = s.warn ∧
      (s.warn = false → ∀ j, 1 ≤ j → j ≤ n → s.valid j → 0 < q.m j)) ∧
    (l.run = false → s.warn = false ∧ l.warn = true ∧ ∃ j, 1 ≤ j ∧ j ≤ n ∧ s.valid j = true ∧ q.m j ≤ 0) := by
  induction n with
  | zero =>
    refine ⟨fun _ => ⟨fun j => ?_, fun j => ?_, rfl, fun _ j h1 h2 => by omega⟩, fun h => by simp [loop] at h⟩
    · rw [if_neg (by omega)]; rfl
    · rw [if_neg (by omega)]; rfl
  | succ n ih =>
    simp only [loop] at ih ⊢
    generalize loop (scalarBody s base dd) n ⟨true, s.flag, q.m, s.warn⟩ = l at *
    obtain ⟨i1, i2⟩ := ih
    rcases hr : l.run with _ | _
    · obtain ⟨w1, w2, j, h1, h2, h3⟩ := i2 hr
      have e : scalarBody s base dd (n + 1) l = l := by unfold scalarBody; simp [hr]
      rw [e, hr]
      exact ⟨fun h => (by simp at h), fun _ => ⟨w1, w2, j, h1, by omega, h3⟩⟩
    · obtain ⟨f1, f2, f3, f4⟩ := i1 hr
      have hmn : l.m (n + 1) = q.m (n + 1) := by rw [f2, if_neg (by omega)]
      rcases hv : s.valid (n + 1) with _ | _
      · have e : scalarBody s base dd (n + 1) l = l := by unfold scalarBody; simp [hr, hv]
        have hiff : ∀ j, (1 ≤ j ∧ j ≤ n + 1 ∧ s.valid j = true) ↔ (1 ≤ j ∧ j ≤ n ∧ s.valid j = true) := by
          intro j
          constructor
          · rintro ⟨a, b, c⟩
            refine ⟨a, ?_, c⟩
            rcases Nat.lt_or_ge j (n + 1) with h | h
            · omega
            · have : j = n + 1 := by omega
              subst this; rw [hv] at c; simp at c
          · rintro ⟨a, b, c⟩; exact ⟨a, by omega, c⟩
        rw [e, hr]
        refine ⟨fun _ => ⟨fun j => ?_, fun j => ?_, f3, fun hw j h1 h2 h3 => ?_⟩, fun h => by simp at h⟩
        · rw [f1]; simp only [hiff]
        · rw [f2]; simp only [hiff]
        · exact f4 hw j h1 ((hiff j).1 ⟨h1, h2, h3⟩).2.1 h3
      · by_cases hbad : l.m (n + 1) ≤ 0 ∧ l.warn = false
        · have e : scalarBody s base dd (n + 1) l =
              { l with flag := upd l.flag (n + 1) base, warn := true, run := false } := by
            unfold scalarBody; simp [hr, hv, hbad]
          rw [e]
          refine ⟨fun h => (by simp at h), fun _ => ⟨?_, rfl, n + 1, by omega, le_refl _, hv, ?_⟩⟩
          · rw [← f3]; exact hbad.2
          · rw [← hmn]; exact hbad.1
        · have e : scalarBody s base dd (n + 1) l =
              { l with flag := upd l.flag (n + 1) base, m := upd l.m (n + 1) (l.m (n + 1) * dd) } := by
            unfold scalarBody; simp only [hr, hv, Bool.not_true, Bool.false_eq_true, if_false, if_neg hbad]
          rw [e]
          refine ⟨fun _ => ⟨fun j => ?_, fun j => ?_, f3, fun hw j h1 h2 h3 => ?_⟩,
            fun h => by simp [hr] at h⟩
          · dsimp only [upd]
            by_cases hj : j = n + 1
            · subst hj; rw [if_pos rfl, if_pos ⟨by omega, le_refl _, hv⟩]
            · rw [if_neg hj, f1]
              have : (j ≤ n + 1) = (j ≤ n) := by apply propext; omega
              simp only [this]
          · dsimp only [upd]
            by_cases hj : j = n + 1
            · subst hj; rw [if_pos rfl, if_pos ⟨by omega, le_refl _, hv⟩, hmn]
            · rw [if_neg hj, f2]
              have : (j ≤ n + 1) = (j ≤ n) := by apply propext; omega
              simp only [this]
          · by_cases hj : j = n + 1
            · subst hj
              rw [← hmn]
              exact not_le.1 fun h => hbad ⟨h, by rw [f3]; exact hw⟩
            · exact f4 hw j h1 (by omega) h3

end

end Mmg.Scale
