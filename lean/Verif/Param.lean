/-
  Parameters: what is set is what is read (C71).
-/
import Verif.ParamModel

namespace Mmg.Param

/-! ### Specification -/

/-- Values that the type of the parameter can hold. -/
def Fits : IP → Int → Prop
  | .debug, v | .iso, v | .lag, v | .nreg, v | .xreg, v => -128 ≤ v ∧ v < 128
  | .noinsert, v | .noswap, v | .nomove, v | .nosurf, v => 0 ≤ v ∧ v < 256
  | _, v => -2147483648 ≤ v ∧ v < 2147483648

/-- Values that are taken: the memory must be positive, the mode of the lagrangian motion is 0, 1
or 2 and needs the library for elasticity. -/
def taken (cfg : Cfg) : IP → Int → Bool
  | .mem, v => decide (0 < v)
  | .lag, v => cfg.elas && decide (0 ≤ v) && decide (v ≤ 2)
  | _, _ => true

/-- Value of the parameter `q` after a call, when it was `x`: the value given if the call is for
this parameter and the value is taken. -/
def after (cfg : Cfg) (q : IP) (x : Int) : Call → Int
  | .i p v _ => if p = q ∧ taken cfg p v = true then v else x
  | .d _ _ => x

/-- State after a list of calls. -/
noncomputable def run (code : Code) (cfg : Cfg) (s : Info) (cs : List Call) : Info :=
  cs.foldl (step code cfg) s

/-! ### Lemmas -/

theorem i8_id {v : Int} (h : -128 ≤ v ∧ v < 128) : i8 v = v := by unfold i8; omega
theorem u8_id {v : Int} (h : 0 ≤ v ∧ v < 256) : u8 v = v := by unfold u8; omega
theorem i32_id {v : Int} (h : -2147483648 ≤ v ∧ v < 2147483648) : i32 v = v := by
  unfold i32; omega

/-! ### Integer parameters -/

/-- A parameter that can be read has the value just given, if it can hold it. -/
theorem C71_set_get {code : Code} (hc : code ≠ .d2) {cfg : Cfg} {env : Env} {s : Info} {p : IP}
    {v : Int} (hr : getI code cfg s p ≠ none) (hp : p ≠ .angle) (hv : Fits p v)
    (ht : taken cfg p v = true) : getI code cfg (setI code cfg env s p v).1 p = some v := by
  cases p <;> cases code <;>
    simp_all [getI, setI, Fits, taken, i8_id, u8_id, i32_id] <;>
    (try split_ifs) <;> simp_all [i8_id] <;> omega

/-- Other parameters keep their values, whether the call succeeds or not; but a lagrangian motion
of mode 0 or 1 forbids insertions. -/
theorem C71_frame {code : Code} (hc : code ≠ .d2) {cfg : Cfg} {env : Env} {s : Info} {p q : IP}
    {v : Int} (hq : p ≠ q) (hl : ¬ (p = .lag ∧ q = .noinsert)) :
    getI code cfg (setI code cfg env s p v).1 q = getI code cfg s q := by
  cases p <;> cases code <;> simp only [setI] <;> cases q <;> simp_all [getI] <;>
    (try split_ifs) <;> simp_all

/-- A value that is not taken changes nothing. -/
theorem C71_not_taken {code : Code} {cfg : Cfg} {env : Env} {s : Info} {p : IP} {v : Int}
    (ht : taken cfg p v = false) : (setI code cfg env s p v).1 = s := by
  cases p <;> simp only [taken, reduceCtorEq] at ht
  · simp only [decide_eq_false_iff_not, not_lt] at ht
    simp [setI, ht]
  · simp only [Bool.and_eq_false_iff, decide_eq_false_iff_not, not_le] at ht
    simp only [setI]
    split_ifs with h1 h2 h3 h4
    · rfl
    · rfl
    · simp only [h2, Bool.true_eq_false, false_or] at ht
      omega
    · simp only [h2, Bool.true_eq_false, false_or] at ht
      omega
    · rfl

/-- Real parameters do not change what is read; but the angle of detection changes the answer for
the detection of angles. -/
theorem C71_frame_real {code : Code} {cfg : Cfg} {s : Info} {p : DP} {q : IP} {x : ℝ}
    (hq : ¬ (p = .angleDetection ∧ q = .angle)) :
    getI code cfg (setD code s p x).1 q = getI code cfg s q := by
  cases p <;> simp only [setD] <;> (try split_ifs) <;> cases q <;> simp_all [getI]

/-- Whether a parameter can be read does not depend on its value. -/
theorem readable {code : Code} {cfg : Cfg} {s s' : Info} {q : IP} :
    getI code cfg s q ≠ none → getI code cfg s' q ≠ none := by
  cases q <;> simp only [getI] <;> (try split_ifs) <;> simp

/-- After any sequence of calls, in any order and with any failures, a parameter that can be read
has the last value given to it. -/
theorem C71_history {code : Code} (hc : code ≠ .d2) {cfg : Cfg} {q : IP} (hq : q ≠ .angle)
    (cs : List Call) (s : Info) (x : Int) (hx : getI code cfg s q = some x)
    (hfit : ∀ v env, Call.i q v env ∈ cs → Fits q v)
    (hlag : q = .noinsert → ∀ v env, Call.i .lag v env ∉ cs) :
    getI code cfg (run code cfg s cs) q = some (cs.foldl (after cfg q) x) := by
  induction cs generalizing s x with
  | nil => exact hx
  | cons c cs ih =>
    refine ih _ _ ?_ (fun v env h => hfit v env (List.mem_cons_of_mem _ h))
      (fun h v env hm => hlag h v env (List.mem_cons_of_mem _ hm))
    cases c with
    | d p y =>
      simp only [step, after]
      rw [C71_frame_real (fun h => hq h.2), hx]
    | i p v env =>
      simp only [step, after]
      by_cases hpq : p = q
      · subst hpq
        by_cases ht : taken cfg p v = true
        · rw [if_pos ⟨rfl, ht⟩]
          exact C71_set_get hc (by rw [hx]; simp) hq (hfit v env List.mem_cons_self) ht
        · rw [if_neg (fun h => ht h.2), C71_not_taken (by simpa using ht), hx]
      · rw [if_neg (fun h => hpq h.1), C71_frame hc hpq, hx]
        rintro ⟨rfl, rfl⟩
        exact hlag rfl v env List.mem_cons_self

/-- When no allocation fails, the answer is 0 for the lagrangian motion only, and then the value was
not taken. -/
theorem C71_refused {code : Code} (hc : code ≠ .d2) {cfg : Cfg} {env : Env} {s : Info} {p : IP}
    {v : Int} (hr : getI code cfg s p ≠ none) (he : env.ok = true)
    (h : (setI code cfg env s p v).2 = false) : p = .lag ∧ taken cfg p v = false := by
  cases p <;> cases code <;> simp_all [getI, setI, taken]
  split_ifs at h with h1 h2 h3 <;> simp_all
  omega

/-! ### Detection of angles -/

/-- Whether a call turns the detection on or off: `MMG3D_IPARAM_angle` by its value,
`MMG3D_DPARAM_angleDetection` on below 90 degrees. -/
noncomputable def detect (x : Int) : Call → Int
  | .i .angle v _ => if v = 0 then 0 else 1
  | .d .angleDetection a => if a < 90 then 1 else 0
  | _ => x

theorem cos_pos_iff {t : ℝ} (h0 : 0 ≤ t) (h1 : t ≤ 180) :
    0 < Real.cos (t * Real.pi / 180) ↔ t < 90 := by
  have hpi := Real.pi_pos
  constructor
  · intro h
    by_contra hn
    push Not at hn
    have := Real.cos_nonpos_of_pi_div_two_le_of_le (x := t * Real.pi / 180)
      (by nlinarith) (by nlinarith)
    linarith
  · intro h
    apply Real.cos_pos_of_mem_Ioo
    constructor <;> nlinarith

/-- What is read is decided by the last of the two parameters that was set. -/
theorem C71_angle {code : Code} {cfg : Cfg} (cs : List Call) (s : Info) (x : Int)
    (hx : getI code cfg s .angle = some x) :
    getI code cfg (run code cfg s cs) .angle = some (cs.foldl detect x) := by
  induction cs generalizing s x with
  | nil => exact hx
  | cons c cs ih =>
    refine ih _ _ ?_
    cases c with
    | d p a =>
      by_cases hp : p = .angleDetection
      · subst hp
        change some (if Real.cos (max 0 (min 180 a) * Real.pi / 180) ≤ 0 then (0 : Int) else 1) =
          some (if a < 90 then 1 else 0)
        have hle : 0 ≤ max 0 (min 180 a) := le_max_left _ _
        have hle' : max 0 (min 180 a) ≤ 180 := max_le (by norm_num) (min_le_left _ _)
        have key := cos_pos_iff hle hle'
        have hm : max 0 (min 180 a) < 90 ↔ a < 90 := by
          constructor
          · intro h
            by_contra hn
            push Not at hn
            have : (90 : ℝ) ≤ min 180 a := le_min (by norm_num) hn
            exact absurd (lt_of_le_of_lt (le_trans this (le_max_right _ _)) h) (lt_irrefl _)
          · exact fun h => max_lt (by norm_num) (lt_of_le_of_lt (min_le_right _ _) h)
        by_cases ha : a < 90
        · have h1 := key.mpr (hm.mpr ha)
          rw [if_neg (not_le.mpr h1), if_pos ha]
        · have h1 := mt (fun h => hm.mp (key.mp h)) ha
          rw [if_pos (not_lt.mp h1), if_neg ha]
      · have e : detect x (.d p a) = x := by cases p <;> first | rfl | exact absurd rfl hp
        rw [e]
        simp only [step]
        rw [C71_frame_real (fun h => hp h.1), hx]
    | i p v env =>
      by_cases hp : p = .angle
      · subst hp
        simp only [step, setI, detect, getI]
        by_cases hv : v = 0
        · simp [hv]
        · simp only [hv, if_false]
          rw [if_neg (by unfold ANGEDG; norm_num)]
      · have e : detect x (.i p v env) = x := by cases p <;> first | rfl | exact absurd rfl hp
        have hf : (setI code cfg env s p v).1.dhd = s.dhd := by
          cases p <;> cases code <;> simp only [setI] <;> (try split_ifs) <;>
            first | rfl | exact absurd rfl hp
        rw [e]
        simp only [step, getI, hf]
        exact hx

/-! ### Real parameters -/

/-- In any sequence of calls the Hausdorff number stays positive and the relaxation parameter
between 0 and 1. -/
theorem C71_real_bounds {code : Code} {cfg : Cfg} (cs : List Call) (s : Info)
    (h : 0 < s.hausd ∧ 0 ≤ s.lxreg ∧ s.lxreg ≤ 1) :
    0 < (run code cfg s cs).hausd ∧ 0 ≤ (run code cfg s cs).lxreg ∧
      (run code cfg s cs).lxreg ≤ 1 := by
  induction cs generalizing s with
  | nil => exact h
  | cons c cs ih =>
    refine ih _ ?_
    cases c with
    | i p v env =>
      have hf1 : (setI code cfg env s p v).1.hausd = s.hausd := by
        cases p <;> cases code <;> simp only [setI] <;> (try split_ifs) <;> rfl
      have hf2 : (setI code cfg env s p v).1.lxreg = s.lxreg := by
        cases p <;> cases code <;> simp only [setI] <;> (try split_ifs) <;> rfl
      simp only [step, hf1, hf2]
      exact h
    | d p a =>
      simp only [step]
      cases p
      case hausd =>
        simp only [setD]
        split_ifs with hx
        · exact h
        · exact ⟨not_le.mp hx, h.2⟩
      case xreg =>
        simp only [setD]
        split_ifs with hx
        · exact h
        · exact ⟨h.1, not_lt.mp fun h => hx (Or.inl h), not_lt.mp fun h => hx (Or.inr h)⟩
      all_goals exact h

/-- The gradation is stored as a logarithm: `exp` of the stored value is the value given. A value
that is not positive is stored as -1 (no gradation). -/
theorem C71_gradation {code : Code} {s : Info} {x : ℝ} :
    (setD code s .hgrad x).2 = true ∧
    (0 < x → Real.exp (setD code s .hgrad x).1.hgrad = x) ∧
    (x ≤ 0 → (setD code s .hgrad x).1.hgrad = -1) ∧
    (0 < (setD code s .hgrad x).1.hgrad ↔ 1 < x) := by
  refine ⟨rfl, ?_, ?_, ?_⟩
  · intro h
    simp only [setD]
    rw [if_neg (not_le.mpr h), Real.exp_log h]
  · intro h
    simp [setD, h]
  · simp only [setD]
    by_cases h : x ≤ 0
    · rw [if_pos h]
      constructor <;> intro h' <;> linarith
    · rw [if_neg h]
      exact Real.log_pos_iff (by linarith)

/-- In 2D accepted bounds of the sizes are positive, and in order when both are set. -/
theorem C71_2d_sizes {s : Info} {x : ℝ} :
    ((setD .d2 s .hmin x).2 = true → 0 < (setD .d2 s .hmin x).1.hmin ∧
      ((setD .d2 s .hmin x).1.sethmax = true →
        (setD .d2 s .hmin x).1.hmin < (setD .d2 s .hmin x).1.hmax)) ∧
    ((setD .d2 s .hmax x).2 = true → 0 < (setD .d2 s .hmax x).1.hmax ∧
      ((setD .d2 s .hmax x).1.sethmin = true →
        (setD .d2 s .hmax x).1.hmin < (setD .d2 s .hmax x).1.hmax)) := by
  constructor
  · simp only [setD, if_true, Bool.and_eq_true, Bool.not_eq_true', Bool.and_eq_false_iff,
      decide_eq_false_iff_not, not_le]
    rintro ⟨h1, h2⟩
    refine ⟨h2, fun h => ?_⟩
    rcases h1 with h1 | h1
    · rw [h] at h1; cases h1
    · exact h1
  · simp only [setD, if_true, Bool.and_eq_true, Bool.not_eq_true', Bool.and_eq_false_iff,
      decide_eq_false_iff_not, not_le]
    rintro ⟨h1, h2⟩
    refine ⟨h2, fun h => ?_⟩
    rcases h1 with h1 | h1
    · rw [h] at h1; cases h1
    · exact h1

/-! ### Base references of the level set -/

theorem setBases_ok (bs : List Int) (hb : ∀ b ∈ bs, 0 ≤ b) (s : Info) (pre : List Int) (k : Nat)
    (hbr : s.br = some (pre ++ List.replicate k 0)) (hn : s.nbri = pre.length)
    (hk : s.nbr = (pre.length + k : Nat)) (hlen : bs.length ≤ k) :
    ∃ s', setBases s bs = some (some s') ∧
      s'.br = some (pre ++ bs ++ List.replicate (k - bs.length) 0) ∧
      s'.nbri = (pre.length + bs.length : Nat) := by
  induction bs generalizing s pre k with
  | nil => exact ⟨s, rfl, by simpa using hbr, by simpa using hn⟩
  | cons b bs ih =>
    obtain ⟨k, rfl⟩ : ∃ k', k = k' + 1 := ⟨k - 1, by simp at hlen; omega⟩
    have h0 : 0 ≤ b := hb b List.mem_cons_self
    have e : (pre ++ List.replicate (k + 1) (0 : Int)).set pre.length b =
        (pre ++ [b]) ++ List.replicate k 0 := by
      rw [List.set_append_right _ _ (Nat.le_refl _)]
      simp [List.replicate_succ]
    have h1 : setBase s b = some (some { s with br := some ((pre ++ [b]) ++ List.replicate k 0),
                                                nbri := s.nbri + 1 }) := by
      unfold setBase
      rw [if_neg (by omega), if_neg (by omega), if_neg (by omega), hbr]
      simp only
      rw [if_pos (by rw [hn]; simp), hn]
      simp only [Int.toNat_natCast, e]
    obtain ⟨s', h2, h3, h4⟩ := ih (fun b hb' => hb b (List.mem_cons_of_mem _ hb'))
      { s with br := some ((pre ++ [b]) ++ List.replicate k 0), nbri := s.nbri + 1 }
      (pre ++ [b]) k rfl (by simp [hn]) (by simp; omega) (by simp at hlen; omega)
    refine ⟨s', ?_, ?_, ?_⟩
    · simp only [setBases, h1, h2]
    · rw [h3]
      simp
    · rw [h4]
      simp; omega

/-- 2D and surface: after the number of base references is given, this number of references can be
given and they are the ones stored, whatever was given before. -/
theorem C71_base {code : Code} (hc : code ≠ .d3) {cfg : Cfg} {env : Env} (he : env.ok = true)
    {s : Info} {bs : List Int} (hb : ∀ b ∈ bs, 0 ≤ b) (hl : bs.length < 2147483648) :
    ∃ s', setBases (setI code cfg env s .nBase bs.length).1 bs = some (some s') ∧
      s'.br = some bs ∧ s'.nbri = bs.length := by
  have hi : i32 bs.length = bs.length := i32_id (by omega)
  obtain ⟨s', h1, h2, h3⟩ := setBases_ok bs hb (setI code cfg env s .nBase bs.length).1 []
    bs.length
    (by cases code <;> first | exact absurd rfl hc | simp [setI, he, zeros])
    (by cases code <;> first | exact absurd rfl hc | simp [setI])
    (by cases code <;> first | exact absurd rfl hc | simp [setI, hi]) (Nat.le_refl _)
  exact ⟨s', h1, by simpa using h2, by simpa using h3⟩

/-- 3D: the same, if no base reference was given before.  (Full statement: the one of
`C71_base`; false for `.d3`, see `Ex.C71_base_observed`.) -/
theorem C71_base_partial {cfg : Cfg} {env : Env} (he : env.ok = true)
    {s : Info} (hs : s.nbri = 0) {bs : List Int} (hb : ∀ b ∈ bs, 0 ≤ b)
    (hl : bs.length < 2147483648) :
    ∃ s', setBases (setI .d3 cfg env s .nBase bs.length).1 bs = some (some s') ∧
      s'.br = some bs ∧ s'.nbri = bs.length := by
  have hi : i32 bs.length = bs.length := i32_id (by omega)
  obtain ⟨s', h1, h2, h3⟩ := setBases_ok bs hb (setI .d3 cfg env s .nBase bs.length).1 []
    bs.length (by simp [setI, he, zeros]) (by simp [setI, he, hs]) (by simp [setI, he, hi])
    (Nat.le_refl _)
  exact ⟨s', h1, by simpa using h2, by simpa using h3⟩

/-! ### Examples and observations -/

namespace Ex

/-- Default values (`MMG5_Init_parameters`, common/API_functions.c), with reals set to 1. -/
noncomputable def s0 : Info where
  dhd := ANGEDG
  hmin := -1
  hmax := -1
  hsiz := -1
  hgrad := 1
  hgradreq := 1
  hausd := 1
  ls := 0
  lxreg := 0
  rmc := -1
  sethmin := false
  sethmax := false
  isoref := 10
  nsd := 0
  mem := -1
  npar := 0
  npari := 0
  par := none
  nbr := 0
  nbri := 0
  br := none
  nmat := 0
  nmati := 0
  mat := none
  opnbdy := 0
  renum := 0
  octree := 32
  imprim := 1
  nreg := 0
  xreg := 0
  ddebug := 0
  iso := 0
  isosurf := 0
  setfem := 1
  lag := -1
  ani := 0
  optim := 0
  optimLES := 0
  noinsert := 0
  noswap := 0
  nomove := 0
  nosurf := 0
  nosizreq := 0

def cfg : Cfg := ⟨true, true, true⟩
def yes : Env := ⟨true⟩
def no : Env := ⟨false⟩

/-- Use of `C71_history`: insertions forbidden, then allowed, with other calls in between. -/
example : getI .d3 cfg (run .d3 cfg s0 [.i .noinsert 1 yes, .i .iso 1 no, .d .hmin 3, .i .mem 0 yes,
    .i .noinsert 0 yes, .i .verbose 5 yes]) .noinsert = some 0 := by
  rw [C71_history (by decide) (by decide) _ s0 0 rfl]
  · rfl
  · intro v env h
    simp at h
    rcases h with ⟨rfl, _⟩ | ⟨rfl, _⟩ <;> simp [Fits]
  · intro _ v env h
    simp at h

/-- Parameters of 3D that can be set but not read. -/
theorem C71_unreadable_observed (s : Info) :
    ∀ q ∈ [IP.nofem, .opnbdy, .isoref, .isosurf, .numsubdomain, .optim, .optimLES, .nosizreq,
      .nBase, .anisosize], getI .d3 cfg s q = none ∧ (setI .d3 cfg yes s q 1).2 = true := by
  intro q hq
  simp only [List.mem_cons, List.not_mem_nil, or_false] at hq
  rcases hq with rfl | rfl | rfl | rfl | rfl | rfl | rfl | rfl | rfl | rfl <;>
    simp [getI, setI, yes]

/-- A value that the type cannot hold is accepted and changed: 256 allows the swaps. -/
theorem C71_wrap_observed (s : Info) :
    (setI .d3 cfg yes s .noswap 256).2 = true ∧
    getI .d3 cfg (setI .d3 cfg yes s .noswap 256).1 .noswap = some 0 := by
  simp [setI, getI, u8]

/-- "Reset to default value" does not reset the memory given before. -/
theorem C71_mem_observed :
    getI .d3 cfg (run .d3 cfg s0 [.i .mem 1000 yes, .i .mem 0 yes]) .mem = some 1000 := by
  rw [C71_history (by decide) (by decide) _ s0 (-1) rfl]
  · rfl
  · intro v env h
    simp at h
    rcases h with ⟨rfl, _⟩ | ⟨rfl, _⟩ <;> simp [Fits]
  · intro h; cases h

/-- An angle of detection above 90 degrees is read as "no detection" although the detection is on
(it is off below `MMG5_ANGLIM`, mmg3d/analys_3d.c). -/
theorem C71_angle_observed (s : Info) :
    getI .d3 cfg (setD .d3 s .angleDetection 120).1 .angle = some 0 ∧
    -0.999999 < (setD .d3 s .angleDetection 120).1.dhd := by
  have e : (setD .d3 s .angleDetection 120).1.dhd = -(1 / 2) := by
    simp only [setD]
    rw [min_eq_right (by norm_num), max_eq_right (by norm_num),
      show (120 : ℝ) * Real.pi / 180 = Real.pi - Real.pi / 3 by ring, Real.cos_pi_sub,
      Real.cos_pi_div_three]
  refine ⟨?_, by rw [e]; norm_num⟩
  simp only [getI, e]
  norm_num

/-- Surface: once on, the level-set mode cannot be turned off. -/
theorem C71_surface_iso_observed :
    (run .surf cfg s0 [.i .iso 1 yes, .i .iso 0 yes]).iso = 1 ∧
    (run .d3 cfg s0 [.i .iso 1 yes, .i .iso 0 yes]).iso = 0 := by
  simp [run, step, setI, s0, i8]

/-- 3D: references given after a new declaration of their number are refused, the old ones are
replaced by 0; or they are stored behind zeros. -/
theorem C71_base_observed :
    ∃ s, setBases (setI .d3 cfg yes s0 .nBase 2).1 [7, 8] = some (some s) ∧
      (setI .d3 cfg yes s .nBase 2).1.br = some [0, 0] ∧
      setBases (setI .d3 cfg yes s .nBase 2).1 [5, 6] = none ∧
      ∃ s', setBases (setI .d3 cfg yes s .nBase 3).1 [5] = some (some s') ∧
        s'.br = some [0, 0, 5] := by
  refine ⟨_, rfl, rfl, ?_, _, rfl, rfl⟩
  simp [setBases, setBase, setI, yes, s0, i32]

/-- When the memory for the local parameters is refused, giving one of them uses a NULL pointer. -/
theorem C71_null_observed :
    (setI .d3 cfg no s0 .nLocal 2).2 = false ∧
    firstLocal (setI .d3 cfg no s0 .nLocal 2).1 = some none ∧
    ∃ s, firstLocal (setI .d3 cfg yes s0 .nLocal 2).1 = some (some s) := by
  refine ⟨rfl, ?_, ?_⟩
  · simp [firstLocal, setI, no, i32]
  · simp [firstLocal, setI, yes, i32]

/-- 2D: bounds that are refused are stored all the same. -/
theorem C71_2d_refused_observed (s : Info) :
    (setD .d2 s .hmin (-3)).2 = false ∧ (setD .d2 s .hmin (-3)).1.hmin = -3 ∧
    (setD .d2 s .hmin (-3)).1.sethmin = true := by
  refine ⟨?_, rfl, rfl⟩
  simp only [setD, if_true, Bool.and_eq_false_iff]
  right
  norm_num

/-- 3D: a minimal size above the maximal one is accepted, and so is a negative one. -/
theorem C71_3d_sizes_observed (s : Info) :
    (setD .d3 s .hmin (-3)).2 = true ∧
    (setD .d3 (setD .d3 s .hmax 1).1 .hmin 2).2 = true := ⟨rfl, rfl⟩

/-- A relaxation parameter out of its bounds is not stored, but the answer is 1. -/
theorem C71_xreg_observed (s : Info) :
    (setD .d3 s .xreg 2).2 = true ∧ (setD .d3 s .xreg 2).1 = s := by
  simp only [setD]
  rw [if_pos (Or.inr (by norm_num))]
  exact ⟨rfl, rfl⟩

end Ex

end Mmg.Param
