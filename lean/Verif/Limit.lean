/-
  The limits on the numbers of entities and the arrays (C72).
-/
import Verif.LimitModel

namespace Mmg.Limit

/-! ### Specification -/

/-- The limits do not exceed the arrays. -/
def Inside (s : St) : Prop := ∀ a b, s.arr = some (a, b) → s.npmax ≤ a ∧ s.nemax ≤ b

/-- The mesh is within the limits. -/
def Loaded (s : St) : Prop :=
  s.cnt.np ≤ s.npmax ∧ s.cnt.ne ≤ s.nemax ∧ s.cnt.nt ≤ s.ntmax

/-! ### Lemmas -/

/-- The limits of an accepted call, as functions of the counts and of the memory. -/
def limP (cfg : Cfg) (c : Cnt) (M : Nat) : Nat :=
  min (max (3 * c.np / 2) NPMAX) (c.np + npadd cfg c M)
def limE0 (cfg : Cfg) (c : Cnt) (M : Nat) : Nat :=
  min (max (3 * c.ne / 2) NEMAX) (6 * npadd cfg c M + c.ne)
def limE (cfg : Cfg) (c : Cnt) (M : Nat) : Nat :=
  if cfg.int32 = true then min (int32Max c) (limE0 cfg c M) else limE0 cfg c M
def limT (cfg : Cfg) (c : Cnt) (M : Nat) : Nat :=
  min (max (3 * c.nt / 2) NTMAX) (2 * npadd cfg c M + c.nt)

theorem npadd_mono {cfg : Cfg} {c : Cnt} {M M' : Nat} (h : M ≤ M') :
    npadd cfg c M ≤ npadd cfg c M' :=
  Nat.div_le_div_right (Nat.sub_le_sub_right h _)

theorem limP_mono {cfg : Cfg} {c : Cnt} {M M' : Nat} (h : M ≤ M') :
    limP cfg c M ≤ limP cfg c M' := by
  have := npadd_mono (cfg := cfg) (c := c) h
  unfold limP
  omega

theorem limE_mono {cfg : Cfg} {c : Cnt} {M M' : Nat} (h : M ≤ M') :
    limE cfg c M ≤ limE cfg c M' := by
  have := npadd_mono (cfg := cfg) (c := c) h
  unfold limE limE0
  split_ifs <;> omega

/-- The memory after `memSet`. -/
def newMax (cfg : Cfg) (mem : Int) (M : Nat) : Nat :=
  if mem ≤ 0 then cfg.ram / 2 else if M * 2 < mem.toNat * MILLION then M else mem.toNat * MILLION

theorem memSet_eq (cfg : Cfg) (s : St) :
    memSet cfg s = { s with memMax := newMax cfg s.mem s.memMax } := by
  unfold memSet newMax
  split_ifs <;> rfl

theorem memOption_true {cfg : Cfg} {s t : St} (h : memOption cfg s = (t, true)) :
    t = { s with npmax := limP cfg s.cnt t.memMax, nemax := limE cfg s.cnt t.memMax,
                 ntmax := limT cfg s.cnt t.memMax, memMax := newMax cfg s.mem s.memMax } ∧
      used cfg.sz s.cnt ≤ t.memMax ∧
      (cfg.int32 = true → limE cfg s.cnt t.memMax = limE0 cfg s.cnt t.memMax ∨
        s.cnt.ne < int32Max s.cnt) := by
  unfold memOption at h
  rw [memSet_eq] at h
  unfold repart at h
  simp only at h
  split_ifs at h with h1 h2 h3
  · simp at h
  · simp at h
  · obtain ⟨rfl⟩ := (Prod.mk.injEq ..).mp h |>.1
    simp only
    refine ⟨?_, Nat.le_of_not_lt h1, fun _ => Or.inr (Nat.lt_of_not_le h3)⟩
    simp only [limP, limE, limE0, limT, h2.1, if_true, St.mk.injEq, true_and, and_true]
    have := h2.2
    omega
  · obtain ⟨rfl⟩ := (Prod.mk.injEq ..).mp h |>.1
    simp only
    refine ⟨?_, Nat.le_of_not_lt h1, fun h4 => Or.inl ?_⟩
    · simp only [limP, limE, limE0, limT, St.mk.injEq, true_and, and_true]
      split_ifs with h4
      · simp only [h4, true_and, not_lt] at h2
        omega
      · rfl
    · simp only [limE, limE0, h4, if_true]
      simp only [h4, true_and, not_lt] at h2
      omega

theorem memOption_loaded {cfg : Cfg} {s t : St} (h : memOption cfg s = (t, true)) : Loaded t := by
  obtain ⟨e, _, h3⟩ := memOption_true h
  rw [e]
  refine ⟨?_, ?_, ?_⟩
  · simp only [limP]
    omega
  · have h0 : s.cnt.ne ≤ limE0 cfg s.cnt t.memMax := by
      unfold limE0
      omega
    simp only
    by_cases hi : cfg.int32 = true
    · rcases h3 hi with h4 | h4
      · omega
      · unfold limE
        rw [if_pos hi]
        omega
    · unfold limE
      rw [if_neg hi]
      exact h0
  · simp only [limT]
    omega

/-! ### Properties -/

/-- After an accepted declaration of the sizes, the mesh is within the limits and the limits are
the sizes of the arrays. -/
theorem C72_set_size {cfg : Cfg} {s t : St} {c : Cnt} {ok : Bool}
    (h : setSize cfg s c ok = (t, true)) :
    t.cnt = c ∧ Loaded t ∧ t.arr = some (t.npmax, t.nemax) := by
  unfold setSize at h
  generalize hr : sizeLimits cfg { s with cnt := c, arr := none } = r at h
  have key : r.2 = true → r.1.cnt = c ∧ Loaded r.1 := by
    have hm : ∀ r', memOption cfg { s with cnt := c, arr := none } = r' → r'.2 = true →
        r'.1.cnt = c ∧ Loaded r'.1 := by
      rintro ⟨u, b⟩ e1 e2
      simp only at e2
      subst e2
      refine ⟨?_, memOption_loaded e1⟩
      have := (memOption_true e1).1
      simp only
      rw [this]
    intro hb
    unfold sizeLimits at hr
    simp only at hr
    split_ifs at hr with h2 h3
    · exact hm r hr hb
    · rw [← hr]
      simp only [not_or, not_lt] at h3
      exact ⟨rfl, h3.1, h3.2.2, h3.2.1⟩
    · exact hm r hr hb
  by_cases h1 : c.np = 0
  · rw [if_pos h1] at h
    simp at h
  rw [if_neg h1] at h
  simp only at h
  by_cases h2 : r.2 = false
  · rw [if_pos h2] at h
    rw [h] at h2
    simp at h2
  rw [if_neg h2] at h
  have hk := key (by simpa using h2)
  cases ok
  · simp at h
  · simp only [if_true, Prod.mk.injEq, and_true] at h
    subst h
    exact ⟨hk.1, hk.2, rfl⟩

/-- The arrays of an accepted mesh (with the adjacencies of its own entities) fit in the memory
allowed: they use no more than the memory of the mesh and half of the rest, up to the entries of
index 0 of prisms and quadrilaterals. -/
theorem C72_room {cfg : Cfg} {s t : St} (h : memOption cfg s = (t, true)) :
    asked cfg.sz t ≤
      used cfg.sz t.cnt + (t.memMax - used cfg.sz t.cnt) / 2 + cfg.sz.prism + cfg.sz.quad ∧
    used cfg.sz t.cnt ≤ t.memMax := by
  obtain ⟨e, h2, _⟩ := memOption_true h
  have hc : t.cnt = s.cnt := by rw [e]
  rw [hc]
  refine ⟨?_, h2⟩
  have hp : t.npmax = limP cfg s.cnt t.memMax := by conv_lhs => rw [e]
  have he : t.nemax = limE cfg s.cnt t.memMax := by conv_lhs => rw [e]
  generalize ha : npadd cfg s.cnt t.memMax = a
  have hp' : t.npmax ≤ s.cnt.np + a := by rw [hp, limP, ha]; omega
  have he' : t.nemax ≤ 6 * a + s.cnt.ne := by
    rw [he]
    unfold limE limE0
    rw [ha]
    split_ifs <;> omega
  have hb : a * (2 * bytes cfg.sz cfg.scotch) ≤ t.memMax - used cfg.sz s.cnt := by
    rw [← ha]
    exact Nat.div_mul_le_self _ _
  have hb2 : a * (cfg.sz.point + 6 * cfg.sz.tetra) ≤ a * bytes cfg.sz cfg.scotch := by
    apply Nat.mul_le_mul_left
    unfold bytes
    omega
  have hb3 : a * (2 * bytes cfg.sz cfg.scotch) = 2 * (a * bytes cfg.sz cfg.scotch) := by
    rw [Nat.mul_left_comm]
  have h4 : a * (cfg.sz.point + 6 * cfg.sz.tetra) ≤ (t.memMax - used cfg.sz s.cnt) / 2 := by omega
  have h5 : (t.npmax + 1) * cfg.sz.point ≤ (s.cnt.np + 1) * cfg.sz.point + a * cfg.sz.point := by
    rw [← Nat.add_mul]
    exact Nat.mul_le_mul_right _ (by omega)
  have h6 : (t.nemax + 1) * cfg.sz.tetra ≤
      (s.cnt.ne + 1) * cfg.sz.tetra + a * (6 * cfg.sz.tetra) := by
    rw [← Nat.mul_assoc, ← Nat.add_mul]
    exact Nat.mul_le_mul_right _ (by omega)
  rw [Nat.mul_add] at h4
  have h7 : (if s.cnt.nprism = 0 then 0 else (s.cnt.nprism + 1) * cfg.sz.prism) ≤
      s.cnt.nprism * cfg.sz.prism + cfg.sz.prism := by
    split_ifs
    · omega
    · rw [Nat.add_mul, Nat.one_mul]
  have h8 : (if s.cnt.nquad = 0 then 0 else (s.cnt.nquad + 1) * cfg.sz.quad) ≤
      s.cnt.nquad * cfg.sz.quad + cfg.sz.quad := by
    split_ifs
    · omega
    · rw [Nat.add_mul, Nat.one_mul]
  have h9 : (if s.cnt.nt = 0 then 0 else (s.cnt.nt + 1) * cfg.sz.tria) ≤
      (s.cnt.nt + 1) * cfg.sz.tria := by
    split_ifs
    · omega
    · exact Nat.le_refl _
  unfold asked used
  unfold used at h4
  rw [hc]
  omega

/-- Successive values given for the memory; `none` when one of them is refused. -/
def setMems (cfg : Cfg) (s : St) : List Int → Option St
  | [] => some s
  | v :: vs => if (setMem cfg s v).2 = true then setMems cfg (setMem cfg s v).1 vs else none

theorem lower {cfg : Cfg} {t u : St}
    (hp : t.npmax = limP cfg t.cnt t.memMax) (he : t.nemax = limE cfg t.cnt t.memMax)
    (hl : Loaded t)
    (hi : (t.mem ≤ 0 → cfg.ram / 2 ≤ t.memMax) ∧
      (0 < t.mem → t.mem.toNat * MILLION ≤ t.memMax ∨ t.memMax * 2 < t.mem.toNat * MILLION))
    (ha : ∀ a b, t.arr = some (a, b) → a = t.npmax ∧ b = t.nemax)
    {vs : List Int} (hv : ∀ v ∈ vs, v.toNat * MILLION ≤ t.memMax)
    (h' : setMems cfg t vs = some u) :
    Inside u ∧ Loaded u ∧ u.memMax ≤ t.memMax ∧ u.cnt = t.cnt ∧ u.arr = t.arr := by
  have gen : ∀ (vs : List Int) (r u : St), (∀ v ∈ vs, v.toNat * MILLION ≤ t.memMax) →
      Inside r → Loaded r → r.memMax ≤ t.memMax → r.cnt = t.cnt → r.arr = t.arr →
      (r.mem ≤ 0 → cfg.ram / 2 ≤ t.memMax) →
      (0 < r.mem → r.mem.toNat * MILLION ≤ t.memMax ∨ t.memMax * 2 < r.mem.toNat * MILLION) →
      setMems cfg r vs = some u →
      Inside u ∧ Loaded u ∧ u.memMax ≤ t.memMax ∧ u.cnt = t.cnt ∧ u.arr = t.arr := by
    intro vs
    induction vs with
    | nil =>
      intro r u _ h1 h2 h3 h4 h5 _ _ hu
      cases hu
      exact ⟨h1, h2, h3, h4, h5⟩
    | cons v vs ih =>
      intro r u hv h1 h2 h3 h4 h5 h6 h7 hu
      unfold setMems at hu
      split_ifs at hu with hok
      generalize hw : setMem cfg r v = w at hu hok
      obtain ⟨w, b⟩ := w
      simp only at hok hu
      subst hok
      unfold setMem at hw
      have hl := memOption_loaded hw
      obtain ⟨ew, _, _⟩ := memOption_true hw
      have hwp : w.npmax = limP cfg t.cnt w.memMax := by rw [← h4]; conv_lhs => rw [ew]
      have hwe : w.nemax = limE cfg t.cnt w.memMax := by rw [← h4]; conv_lhs => rw [ew]
      have hwc : w.cnt = t.cnt := by rw [← h4, ew]
      have hwa : w.arr = t.arr := by rw [← h5, ew]
      have hwm : w.mem = if v ≤ 0 then r.mem else v := by rw [ew]
      have hwM : w.memMax = newMax cfg w.mem r.memMax := by
        rw [hwm]
        conv_lhs => rw [ew]
      have hvM := hv v List.mem_cons_self
      have i6 : w.mem ≤ 0 → cfg.ram / 2 ≤ t.memMax := by
        rw [hwm]
        split_ifs with hv0
        · exact h6
        · omega
      have i7 : 0 < w.mem →
          w.mem.toNat * MILLION ≤ t.memMax ∨ t.memMax * 2 < w.mem.toNat * MILLION := by
        rw [hwm]
        split_ifs with hv0
        · exact h7
        · exact fun _ => Or.inl hvM
      have hle : w.memMax ≤ t.memMax := by
        rw [hwM]
        unfold newMax
        split_ifs with g1 g2
        · exact i6 g1
        · exact h3
        · rcases i7 (by omega) with g3 | g3 <;> omega
      refine ih w u (fun v hm => hv v (List.mem_cons_of_mem _ hm)) ?_ hl hle hwc hwa i6 i7 hu
      intro a b hab
      obtain ⟨rfl, rfl⟩ := ha a b (hwa ▸ hab)
      rw [hwp, hwe, hp, he]
      exact ⟨limP_mono hle, limE_mono hle⟩
  refine gen vs t u hv ?_ hl (Nat.le_refl _) rfl rfl hi.1 hi.2 h'
  intro a b hab
  obtain ⟨rfl, rfl⟩ := ha a b hab
  exact ⟨Nat.le_refl _, Nat.le_refl _⟩

/-- After the sizes are declared, when the memory was not given before, any number of changes of the
memory that are accepted and that do not raise it keeps the limits inside the arrays and the mesh
within the limits.  (Full statement: the same for all accepted values; false, see
`Ex.C72_raise_observed`, and without the condition on the memory before, `Ex.C72_same_value_observed`.) -/
theorem C72_lower_partial {cfg : Cfg} {s t u : St} {c : Cnt} {ok : Bool} (hs : s.mem ≤ 0)
    (h : setSize cfg s c ok = (t, true))
    {vs : List Int} (hv : ∀ v ∈ vs, v.toNat * MILLION ≤ t.memMax)
    (h' : setMems cfg t vs = some u) :
    Inside u ∧ Loaded u ∧ u.memMax ≤ t.memMax ∧ u.cnt = t.cnt ∧ u.arr = t.arr := by
  obtain ⟨_, h2, h3⟩ := C72_set_size h
  have key : ∃ t0, memOption cfg { s with cnt := c, arr := none } = (t0, true) ∧
      t = { t0 with arr := some (t0.npmax, t0.nemax) } := by
    have es : sizeLimits cfg { s with cnt := c, arr := none } =
        memOption cfg { s with cnt := c, arr := none } := by
      unfold sizeLimits
      simp only
      rw [if_neg (by omega)]
    unfold setSize at h
    rw [es] at h
    by_cases h1 : c.np = 0
    · rw [if_pos h1] at h
      simp at h
    rw [if_neg h1] at h
    generalize hr : memOption cfg { s with cnt := c, arr := none } = r at h ⊢
    obtain ⟨t0, b⟩ := r
    cases b
    · simp at h
    · cases ok
      · simp at h
      · simp only [Bool.true_eq_false, if_false, if_true, Prod.mk.injEq, and_true] at h
        exact ⟨t0, rfl, h.symm⟩
  obtain ⟨t0, h4, rfl⟩ := key
  obtain ⟨e, _, _⟩ := memOption_true h4
  have hc : t0.cnt = c := by rw [e]
  have hm : t0.mem = s.mem := by rw [e]
  refine lower ?_ ?_ h2 ⟨fun _ => ?_, fun h5 => ?_⟩ ?_ hv h'
  · simp only [hc]
    conv_lhs => rw [e]
  · simp only [hc]
    conv_lhs => rw [e]
  · simp only
    rw [e]
    simp [newMax, hs]
  · simp only [hm] at h5
    omega
  · intro a b hab
    simp only [Option.some.injEq, Prod.mk.injEq] at hab ⊢
    exact ⟨hab.1.symm, hab.2.symm⟩

/-- The free chain of tetrahedra is written inside the array exactly when the limit is. -/
theorem C72_pack {ne nemax cap : Nat} (h : ne ≤ nemax) (hc : ne ≤ cap) :
    (∀ k ∈ chainWrites ne nemax, k ≤ cap) ↔ nemax ≤ cap := by
  unfold chainWrites
  split_ifs with h1
  · simp
    omega
  · constructor
    · intro h2
      refine h2 nemax (List.mem_map.mpr ⟨nemax - ne - 1, ?_, ?_⟩)
      · rw [List.mem_range]
        omega
      · omega
    · intro h2 k hk
      obtain ⟨i, hi, rfl⟩ := List.mem_map.mp hk
      rw [List.mem_range] at hi
      omega

/-- Whatever is asked, accepted or not, the memory allowed is the initial one, half of the physical
memory, or one of the values asked. -/
theorem C72_memory {cfg : Cfg} (vs : List Int) (s : St) (hs : s.mem ≤ 0) :
    let u := vs.foldl (fun s v => (setMem cfg s v).1) s
    u.memMax = s.memMax ∨ u.memMax = cfg.ram / 2 ∨
      ∃ v ∈ vs, 0 < v ∧ u.memMax = v.toNat * MILLION := by
  have one : ∀ (s : St) (v : Int), (setMem cfg s v).1.mem = (if v ≤ 0 then s.mem else v) ∧
      (setMem cfg s v).1.memMax = newMax cfg (if v ≤ 0 then s.mem else v) s.memMax := by
    intro s v
    unfold setMem memOption
    rw [memSet_eq]
    unfold repart
    simp only
    split_ifs <;> exact ⟨rfl, rfl⟩
  have gen : ∀ (vs ws : List Int) (r : St),
      (r.mem ≤ 0 ∨ r.mem ∈ ws) →
      (r.memMax = s.memMax ∨ r.memMax = cfg.ram / 2 ∨
        ∃ v ∈ ws, 0 < v ∧ r.memMax = v.toNat * MILLION) →
      (vs.foldl (fun s v => (setMem cfg s v).1) r).memMax = s.memMax ∨
      (vs.foldl (fun s v => (setMem cfg s v).1) r).memMax = cfg.ram / 2 ∨
        ∃ v ∈ ws ++ vs, 0 < v ∧
          (vs.foldl (fun s v => (setMem cfg s v).1) r).memMax = v.toNat * MILLION := by
    intro vs
    induction vs with
    | nil =>
      intro ws r _ h
      simpa using h
    | cons v vs ih =>
      intro ws r h1 h2
      obtain ⟨e1, e2⟩ := one r v
      have := ih (ws ++ [v]) (setMem cfg r v).1 ?_ ?_
      · simpa [List.append_assoc] using this
      · rw [e1]
        split_ifs with hv
        · rcases h1 with h1 | h1
          · exact Or.inl h1
          · exact Or.inr (List.mem_append_left _ h1)
        · exact Or.inr (List.mem_append_right _ List.mem_cons_self)
      · rw [e2]
        unfold newMax
        by_cases g1 : (if v ≤ 0 then r.mem else v) ≤ 0
        · rw [if_pos g1]
          exact Or.inr (Or.inl rfl)
        · rw [if_neg g1]
          by_cases g2 : r.memMax * 2 < (if v ≤ 0 then r.mem else v).toNat * MILLION
          · rw [if_pos g2]
            rcases h2 with h2 | h2 | ⟨x, hx, h2⟩
            · exact Or.inl h2
            · exact Or.inr (Or.inl h2)
            · exact Or.inr (Or.inr ⟨x, List.mem_append_left _ hx, h2⟩)
          · rw [if_neg g2]
            refine Or.inr (Or.inr ⟨_, ?_, not_le.mp g1, rfl⟩)
            split_ifs at g1 ⊢ with hv
            · rcases h1 with h1 | h1
              · exact absurd h1 g1
              · exact List.mem_append_left _ h1
            · exact List.mem_append_right _ List.mem_cons_self
  have := gen vs [] s (Or.inl hs) (Or.inl rfl)
  simpa using this

/-! ### Examples and observations -/

namespace Ex

/-- The sizes of a 64-bit build with 32-bit integers. -/
def sz : Sizes := ⟨72, 56, 56, 48, 64, 40, 48, 20, 4⟩

/-- A machine with 2000 MB of memory. -/
def cfg : Cfg := ⟨sz, false, true, 2000 * MILLION⟩

/-- After `MMG3D_Init_mesh`. -/
def s0 : St := ⟨⟨0, 0, 0, 0, 0⟩, 0, 0, 0, 1000 * MILLION, -1, none⟩

def c1 : Cnt := ⟨1000, 5000, 500, 0, 0⟩

/-- Use of `C72_set_size`: the declaration is accepted. -/
example : (setSize cfg s0 c1 true).2 = true ∧
    (setSize cfg s0 c1 true).1.arr = some (662705, 3975230) := by decide +kernel

/-- Use of `C72_lower_partial`: 600 MB then 800 MB asked after the declaration. -/
example : ∃ u, setMems cfg (setSize cfg s0 c1 true).1 [600, 800] = some u ∧
    u.memMax = 800 * MILLION :=
  ⟨_, rfl, rfl⟩

/-- When the memory is raised after the declaration of the sizes, the limits exceed the arrays:
the free chain of the tetrahedra is written behind the array. -/
theorem C72_raise_observed :
    let t := (setSize cfg s0 c1 true).1
    let u := (setMem cfg t 1900).1
    (setMem cfg t 1900).2 = true ∧ u.arr = some (t.npmax, t.nemax) ∧
    t.npmax < u.npmax ∧ t.nemax < u.nemax := by decide +kernel

/-- The same happens when a value is given before and the same value again after the declaration
of the sizes. -/
theorem C72_same_value_observed :
    let t := (setSize cfg (setMem cfg s0 900).1 c1 true).1
    let u := (setMem cfg t 900).1
    (setMem cfg s0 900).2 = true ∧ (setSize cfg (setMem cfg s0 900).1 c1 true).2 = true ∧
    (setMem cfg t 900).2 = true ∧ u.arr = some (t.npmax, t.nemax) ∧
    t.npmax < u.npmax ∧ t.nemax < u.nemax := by decide +kernel

/-- A refused value changes the limits, which then exceed the arrays, and the memory allowed. -/
theorem C72_refused_observed :
    let t := (setSize cfg s0 ⟨10000, 50000, 5000, 0, 0⟩ true).1
    let u := (setMem cfg t 1).1
    (setMem cfg t 1).2 = false ∧ u.memMax = 1 * MILLION ∧ u.arr = some (t.npmax, t.nemax) ∧
    t.npmax < u.npmax ∧ t.nemax < u.nemax := by decide +kernel

/-- The bound by the physical memory compares with the last value: twice the machine can be asked
in two calls, and after a small value a reasonable one is not taken (the answer is a success). -/
theorem C72_physical_observed :
    (setMem cfg s0 4000).1.memMax = 1000 * MILLION ∧
    ((setMem cfg (setMem cfg s0 2000).1 4000).2 = true ∧
      (setMem cfg (setMem cfg s0 2000).1 4000).1.memMax = 4000 * MILLION) ∧
    ((setMem cfg (setMem cfg s0 100).1 500).2 = true ∧
      (setMem cfg (setMem cfg s0 100).1 500).1.memMax = 100 * MILLION) := by decide +kernel

end Ex

end Mmg.Limit
