/- Well-formed octrees: capacities, geometry of the sub-cells, preservation by insertion and
deletion. -/
import Verif.OctModel
import Mathlib.Tactic.Ring
import Mathlib.Tactic.Linarith
import Mathlib.Tactic.FieldSimp
import Mathlib.Tactic.LinearCombination
import Mathlib.Data.List.Perm.Basic
import Mathlib.Data.List.Perm.Subperm
import Mathlib.Data.Nat.Log

namespace Mmg.Oct

/-! ### Capacities -/

theorem pow2_iff : ∀ n : Nat, 0 < n → (pow2 n = true ↔ ∃ k, n = 2 ^ k) := by
  intro n
  induction n using Nat.strongRecOn with
  | _ n ih =>
    intro hn
    by_cases h1 : n = 1
    · subst h1; exact ⟨fun _ => ⟨0, rfl⟩, fun _ => by decide⟩
    have e : ∀ m : Nat, m = 2 * (m / 2) + m % 2 := by intro m; omega
    have hdiv : (n &&& (n - 1)) / 2 = n / 2 &&& (n - 1) / 2 := Nat.and_div_two
    have hmod : (n &&& (n - 1)) % 2 = 0 := by
      by_contra hc
      have h2 : (n &&& (n - 1)).testBit 0 = true := by
        rw [Nat.testBit_zero]; exact decide_eq_true (by omega)
      rw [Nat.testBit_and, Nat.testBit_zero, Nat.testBit_zero] at h2
      simp at h2
      omega
    have hz : pow2 n = true ↔ n / 2 &&& (n - 1) / 2 = 0 := by
      simp only [pow2, beq_iff_eq]
      rw [← hdiv]; omega
    rw [hz]
    rcases Nat.even_or_odd' n with ⟨m, hm | hm⟩
    · have e1 : n / 2 = m := by omega
      have e2 : (n - 1) / 2 = m - 1 := by omega
      have hm0 : 0 < m := by omega
      have := ih m (by omega) hm0
      simp only [pow2, beq_iff_eq] at this
      rw [e1, e2, this]
      constructor
      · rintro ⟨k, hk⟩; exact ⟨k + 1, by rw [hm, hk, Nat.pow_succ]; ring⟩
      · rintro ⟨k, hk⟩
        cases k with
        | zero => omega
        | succ k => exact ⟨k, by rw [Nat.pow_succ] at hk; omega⟩
    · have e1 : n / 2 = m := by omega
      have e2 : (n - 1) / 2 = m := by omega
      rw [e1, e2, Nat.and_self]
      constructor
      · intro h; omega
      · rintro ⟨k, hk⟩
        cases k with
        | zero => omega
        | succ k => rw [Nat.pow_succ] at hk; omega

/-- The array of a leaf with `n` vertices is large enough for the reallocation policy. -/
def CapOK (nv cap n : Nat) : Prop :=
  (cap = 0 ↔ n = 0) ∧ n ≤ cap ∧ (∀ j, n ≤ nv → 2 ^ j < n → 2 ^ (j + 1) ≤ cap) ∧
    (nv < n → ∀ m, m * nv < n → (m + 1) * nv ≤ cap)

theorem two_pow_succ_le {i j : Nat} (h : 2 ^ i < 2 ^ j) : 2 ^ (i + 1) ≤ 2 ^ j :=
  Nat.pow_le_pow_right (by omega) ((Nat.pow_lt_pow_iff_right (by omega)).1 h)

theorem CapOK.append {nv a d cap n : Nat} (hnv : nv = 2 ^ a) (C : CapOK nv cap n)
    (hd : n < nv ∨ 20 ≤ d) : n < newCap nv d cap n ∧ CapOK nv (newCap nv d cap n) (n + 1) := by
  obtain ⟨c0, c1, c2, c3⟩ := C
  have hnv0 : 0 < nv := by rw [hnv]; exact Nat.two_pow_pos a
  by_cases hlt : n < nv
  · by_cases h0 : n = 0
    · subst h0
      have e : newCap nv d cap 0 = 1 := by simp [newCap, hnv0]
      rw [e]
      refine ⟨by omega, by omega, by omega, ?_, by omega⟩
      intro j _ hj
      have := Nat.two_pow_pos j
      omega
    · by_cases hp : pow2 n = true
      · have e : newCap nv d cap n = 2 * n := by simp [newCap, hlt, h0, hp]
        obtain ⟨k, hk⟩ := (pow2_iff n (by omega)).1 hp
        rw [e]
        refine ⟨by omega, by omega, by omega, ?_, by omega⟩
        intro j _ hj
        have h1 : 2 ^ j ≤ n := by omega
        rw [Nat.pow_succ]; omega
      · have e : newCap nv d cap n = cap := by simp [newCap, hlt, h0, hp]
        have hnp : ∀ k, n ≠ 2 ^ k := fun k hk => hp ((pow2_iff n (by omega)).2 ⟨k, hk⟩)
        have hl1 : 2 ^ (Nat.log 2 n) ≤ n := Nat.pow_log_le_self 2 h0
        have hl2 : n < 2 ^ (Nat.log 2 n + 1) := Nat.lt_pow_succ_log_self (by omega) n
        have h3 := c2 (Nat.log 2 n) (by omega) (by have := hnp (Nat.log 2 n); omega)
        rw [e]
        refine ⟨by omega, by omega, by omega, ?_, by omega⟩
        intro j _ hj
        exact c2 j (by omega) (by have := hnp j; omega)
  · have hd' : 20 ≤ d := by rcases hd with h | h <;> omega
    by_cases hm : n % nv = 0
    · have e : newCap nv d cap n = n + nv := by simp [newCap, hlt, hd', hm]
      rw [e]
      refine ⟨by omega, by omega, by omega, by omega, ?_⟩
      intro _ m h
      have : (m + 1) * nv = m * nv + nv := by ring
      omega
    · have e : newCap nv d cap n = cap := by simp [newCap, hlt, hm]
      have hgt : nv < n := by
        rcases Nat.lt_or_ge nv n with h | h
        · exact h
        · have : n = nv := by omega
          rw [this, Nat.mod_self] at hm; omega
      have h4 : n / nv * nv < n := by
        have := Nat.div_add_mod n nv
        have e2 : nv * (n / nv) = n / nv * nv := Nat.mul_comm _ _
        omega
      have h5 := c3 hgt _ h4
      have h6 : n < (n / nv + 1) * nv := by
        rw [Nat.mul_comm]; exact Nat.lt_mul_div_succ n hnv0
      rw [e]
      refine ⟨by omega, by omega, by omega, by omega, ?_⟩
      intro _ m h
      refine c3 hgt m ?_
      have : m * nv ≠ n := by
        rintro rfl
        rw [Nat.mul_mod_left] at hm; omega
      omega

theorem CapOK.del {nv a cap n : Nat} (hnv : nv = 2 ^ a) (C : CapOK nv cap (n + 1)) :
    CapOK nv (delCap cap n) n := by
  obtain ⟨c0, c1, c2, c3⟩ := C
  by_cases h0 : n = 0
  · subst h0
    have e : delCap cap 0 = 0 := rfl
    rw [e]
    refine ⟨by omega, by omega, ?_, by omega⟩
    intro j _ hj; omega
  · by_cases hp : pow2 n = true
    · have e : delCap cap n = n := by simp [delCap, h0, hp]
      obtain ⟨k, hk⟩ := (pow2_iff n (by omega)).1 hp
      rw [e]
      refine ⟨by omega, by omega, ?_, ?_⟩
      · intro j _ hj
        rw [hk] at hj ⊢
        exact two_pow_succ_le hj
      · intro hgt m hm
        rw [hnv, hk] at *
        have hak : a < k := (Nat.pow_lt_pow_iff_right (by omega)).1 hgt
        have e2 : 2 ^ k = 2 ^ (k - a) * 2 ^ a := by rw [← Nat.pow_add]; congr 1; omega
        rw [e2] at hm ⊢
        have := Nat.lt_of_mul_lt_mul_right hm
        exact Nat.mul_le_mul_right _ this
    · have e : delCap cap n = cap := by simp [delCap, h0, hp]
      have hne : n ≠ nv := fun h => hp ((pow2_iff n (by omega)).2 ⟨a, h.trans hnv⟩)
      rw [e]
      refine ⟨by omega, by omega, ?_, ?_⟩
      · intro j h1 h2
        exact c2 j (by omega) (by omega)
      · intro h1 m hm
        exact c3 (by omega) m (by omega)

theorem CapOK.full {nv a : Nat} (hnv : nv = 2 ^ a) : CapOK nv nv nv := by
  refine ⟨by have := Nat.two_pow_pos a; omega, by omega, ?_, by omega⟩
  intro j _ hj
  rw [hnv] at hj ⊢
  exact two_pow_succ_le hj

theorem CapOK.empty (nv : Nat) : CapOK nv 0 0 := by
  refine ⟨by omega, by omega, ?_, by omega⟩
  intro j _ hj; omega

/-! ### Lists of the sub-cells -/

/-- The vertices of eight sub-cells. -/
def total (br : Nat → Oct) : List Nat := (List.range 8).flatMap fun b => (br b).items

theorem items_branch (d nb : Nat) (br : Nat → Oct) : (Oct.branch d nb br).items = total br := by
  rw [Oct.items, total]

theorem mem_total {br : Nat → Oct} {x : Nat} : x ∈ total br ↔ ∃ b, b < 8 ∧ x ∈ (br b).items := by
  simp [total]

theorem flatMap_set {br : Nat → Oct} {b : Nat} {q : Oct} {x : Nat}
    (h : q.items.Perm (x :: (br b).items)) :
    ∀ l : List Nat, l.Nodup → b ∈ l →
      (l.flatMap fun j => (setBr br b q j).items).Perm (x :: l.flatMap fun j => (br j).items) := by
  intro l
  induction l with
  | nil => intro _ hb; simp at hb
  | cons c l ih =>
    intro hn hb
    rw [List.nodup_cons] at hn
    simp only [List.flatMap_cons]
    by_cases hc : c = b
    · subst hc
      have hrest : (l.flatMap fun j => (setBr br c q j).items) = l.flatMap fun j => (br j).items := by
        apply List.flatMap_congr
        intro j hj
        have : j ≠ c := fun e => hn.1 (e ▸ hj)
        simp [setBr, this]
      rw [hrest]
      have e : (setBr br c q c) = q := by simp [setBr]
      rw [e]
      exact h.append_right _
    · have e : (setBr br b q c) = br c := by simp [setBr, hc]
      rw [e]
      have hb' : b ∈ l := by
        rcases List.mem_cons.1 hb with h1 | h1
        · exact absurd h1.symm hc
        · exact h1
      exact ((ih hn.2 hb').append_left _).trans List.perm_middle

theorem total_add {br : Nat → Oct} {b : Nat} {q : Oct} {x : Nat} (hb : b < 8)
    (h : q.items.Perm (x :: (br b).items)) : (total (setBr br b q)).Perm (x :: total br) :=
  flatMap_set h _ List.nodup_range (List.mem_range.2 hb)

theorem total_del {br : Nat → Oct} {b : Nat} {q : Oct} {x : Nat} (hb : b < 8)
    (h : (br b).items.Perm (x :: q.items)) : (total br).Perm (x :: total (setBr br b q)) := by
  have e : setBr (setBr br b q) b (br b) = br := by
    funext j; by_cases hj : j = b <;> simp [setBr, hj]
  have h2 := total_add (br := setBr br b q) (q := br b) hb (x := x) (by simpa [setBr] using h)
  rw [e] at h2
  exact h2

/-! ### Geometry -/

variable {α : Type} [Field α] [LinearOrder α] [IsStrictOrderedRing α]

/-- The sub-cell of a point in a cell with centre `c`. -/
def quadOf (x c : Fin 3 → α) : Nat :=
  (if x 0 > c 0 then 1 else 0) + (if x 1 > c 1 then 2 else 0) + (if x 2 > c 2 then 4 else 0)

/-- The scaled coordinates of a point in a cell of depth `d` and centre `c`. -/
def aff (d : Nat) (c x : Fin 3 → α) : Fin 3 → α := fun i => (x i - c i) * 2 ^ d + 1 / 2

theorem aff_root (x : Fin 3 → α) : aff 0 (fun _ => 1 / 2) x = x := by
  funext i; simp [aff]

theorem aff_gt {d : Nat} {c x : Fin 3 → α} {i : Fin 3} : aff d c x i > 1 / 2 ↔ x i > c i := by
  have h2 : (0 : α) < 2 ^ d := by positivity
  simp only [aff, gt_iff_lt]
  constructor
  · intro h
    have h3 : 0 < (x i - c i) * 2 ^ d := by linarith
    have := (mul_pos_iff_of_pos_right h2).1 h3
    linarith
  · intro h
    have := mul_pos (sub_pos.2 h) h2
    linarith

theorem quad_aff {d : Nat} {c x : Fin 3 → α} : quad (aff d c x) = quadOf x c := by
  simp only [quad, quadOf, aff_gt]

theorem quadOf_lt (x c : Fin 3 → α) : quadOf x c < 8 := by
  simp only [quadOf]; split <;> split <;> split <;> omega

theorem bit_quadOf (x c : Fin 3 → α) (i : Fin 3) : bit (quadOf x c) i = decide (x i > c i) := by
  simp only [quadOf]
  rcases (by omega : i = 0 ∨ i = 1 ∨ i = 2) with rfl | rfl | rfl
  · by_cases h0 : x 0 > c 0 <;> by_cases h1 : x 1 > c 1 <;> by_cases h2 : x 2 > c 2 <;>
      simp [h0, h1, h2, bit] <;> decide
  · by_cases h0 : x 0 > c 0 <;> by_cases h1 : x 1 > c 1 <;> by_cases h2 : x 2 > c 2 <;>
      simp [h0, h1, h2, bit] <;> decide
  · by_cases h0 : x 0 > c 0 <;> by_cases h1 : x 1 > c 1 <;> by_cases h2 : x 2 > c 2 <;>
      simp [h0, h1, h2, bit] <;> decide

theorem shift_aff {d : Nat} {c x : Fin 3 → α} :
    shift (aff d c x) = aff (d + 1) (subCenter c d (quadOf x c)) x := by
  funext i
  have h2 : (2 : α) ^ d ≠ 0 := by positivity
  simp only [shift, aff_gt]
  simp only [aff, subCenter, bit_quadOf, half, decide_eq_true_eq]
  by_cases h : x i > c i
  · simp only [if_pos h]
    rw [pow_succ]
    field_simp
    ring
  · simp only [if_neg h]
    rw [pow_succ]
    field_simp
    ring

/-- `x` follows the path of the cell `(d, c)` from the root. -/
def At (d : Nat) (c x : Fin 3 → α) : Prop := scale d x = aff d c x

theorem At.sub {d : Nat} {c x : Fin 3 → α} (h : At d c x) :
    At (d + 1) (subCenter c d (quadOf x c)) x := by
  unfold At at *
  rw [scale, h, shift_aff]

/-! ### Well-formed trees -/

/-- Well-formed octree cell of depth `d0` and centre `c`. -/
def WF (nv : Nat) (pos : Nat → Fin 3 → α) : Oct → Nat → (Fin 3 → α) → Prop
  | .leaf d cap l, d0, _ => d = d0 ∧ CapOK nv cap l.length ∧ (d < 20 → l.length ≤ nv)
  | .branch d nb br, d0, c => d = d0 ∧ d < 20 ∧ nv + 1 ≤ nb ∧ nb = (total br).length ∧
      ∀ b, b < 8 → WF nv pos (br b) (d + 1) (subCenter c d b) ∧
        ∀ x ∈ (br b).items, quadOf (pos x) c = b

theorem WF.cnt {nv : Nat} {pos : Nat → Fin 3 → α} {q : Oct} {d0 : Nat} {c : Fin 3 → α}
    (h : WF nv pos q d0 c) : q.cnt = q.items.length := by
  cases q with
  | leaf d cap l => rfl
  | branch d nb br =>
    rw [items_branch]
    unfold WF at h
    exact h.2.2.2.1

/-- Sub-cells under construction or modification: everything but the counter. -/
def BrOK (nv : Nat) (pos : Nat → Fin 3 → α) (d : Nat) (c : Fin 3 → α) (br : Nat → Oct) : Prop :=
  ∀ b, b < 8 → WF nv pos (br b) (d + 1) (subCenter c d b) ∧
        ∀ x ∈ (br b).items, quadOf (pos x) c = b

variable {nv : Nat} {pos : Nat → Fin 3 → α}

theorem BrOK.set {d : Nat} {c : Fin 3 → α} {br : Nat → Oct} (H : BrOK nv pos d c br) {b : Nat}
    {q : Oct} (hq : WF nv pos q (d + 1) (subCenter c d b))
    (hx : ∀ x ∈ q.items, quadOf (pos x) c = b) : BrOK nv pos d c (setBr br b q) := by
  intro j hj
  by_cases e : j = b
  · subst e; simp only [setBr, if_true]; exact ⟨hq, hx⟩
  · simp only [setBr, if_neg e]; exact H j hj

/-- What an insertion does. -/
def AddSpec (nv : Nat) (pos : Nat → Fin 3 → α) (d : Nat)
    (f : Oct → (Fin 3 → α) → Nat → Option Oct) : Prop :=
  ∀ (q : Oct) (c : Fin 3 → α) (no : Nat), WF nv pos q d c → (∀ x ∈ q.items, At d c (pos x)) →
    ∃ q', f q (aff d c (pos no)) no = some q' ∧ WF nv pos q' d c ∧
      q'.items.Perm (no :: q.items)

theorem addBr_spec {d : Nat} {f} (hf : AddSpec nv pos (d + 1) f) {c : Fin 3 → α} {br : Nat → Oct}
    (H : BrOK nv pos d c br) (hat : ∀ x ∈ total br, At d c (pos x)) (no : Nat) :
    ∃ br', addBr f br (aff d c (pos no)) no = some br' ∧ BrOK nv pos d c br' ∧
      (total br').Perm (no :: total br) := by
  have hb := quadOf_lt (pos no) c
  obtain ⟨hW, hQ⟩ := H _ hb
  have hat' : ∀ x ∈ (br (quadOf (pos no) c)).items,
      At (d + 1) (subCenter c d (quadOf (pos no) c)) (pos x) := by
    intro x hx
    have h1 := (hat x (mem_total.2 ⟨_, hb, hx⟩)).sub
    rw [hQ x hx] at h1
    exact h1
  obtain ⟨q', h1, h2, h3⟩ := hf (br (quadOf (pos no) c)) _ no hW hat'
  refine ⟨setBr br (quadOf (pos no) c) q', ?_, ?_, ?_⟩
  · unfold addBr
    rw [quad_aff, shift_aff, h1]
    rfl
  · refine H.set h2 ?_
    intro x hx
    rcases List.mem_cons.1 (h3.subset hx) with rfl | hx
    · rfl
    · exact hQ x hx
  · exact total_add hb h3

theorem fold_spec {d : Nat} {f} (hf : AddSpec nv pos (d + 1) f) {c : Fin 3 → α} :
    ∀ (l : List Nat) (br : Nat → Oct), BrOK nv pos d c br →
      (∀ x ∈ total br, At d c (pos x)) → (∀ x ∈ l, At d c (pos x)) →
      ∃ br', l.foldlM (fun br x => addBr f br (scale d (pos x)) x) br = some br' ∧
        BrOK nv pos d c br' ∧ (total br').Perm (total br ++ l) := by
  intro l
  induction l with
  | nil => intro br H _ _; exact ⟨br, rfl, H, by simp⟩
  | cons y l ih =>
    intro br H hat hl
    obtain ⟨br1, h1, h2, h3⟩ := addBr_spec hf H hat y
    have hat1 : ∀ x ∈ total br1, At d c (pos x) := by
      intro x hx
      rcases List.mem_cons.1 (h3.subset hx) with rfl | hx
      · exact hl x (by simp)
      · exact hat x hx
    obtain ⟨br2, h4, h5, h6⟩ := ih br1 h2 hat1 (fun x hx => hl x (by simp [hx]))
    refine ⟨br2, ?_, h5, ?_⟩
    · rw [List.foldlM_cons]
      rw [show scale d (pos y) = aff d c (pos y) from hl y (by simp), h1]
      exact h4
    · refine h6.trans ?_
      refine (h3.append_right l).trans ?_
      simpa using (List.perm_middle (l₁ := total br) (l₂ := l) (a := y)).symm

theorem append_spec {a d cap : Nat} {l : List Nat} (hnv : nv = 2 ^ a) {c : Fin 3 → α}
    (C : CapOK nv cap l.length) (hd : l.length < nv ∨ 20 ≤ d) (no : Nat) :
    ∃ q', append nv d cap l no = some q' ∧ WF nv pos q' d c ∧ q'.items.Perm (no :: l) := by
  obtain ⟨h1, h2⟩ := C.append hnv hd
  refine ⟨_, by unfold append; rw [if_pos h1], ?_, ?_⟩
  · unfold WF
    refine ⟨rfl, by rw [List.length_append]; exact h2, ?_⟩
    intro h3
    rw [List.length_append]
    rcases hd with h | h
    · simp; omega
    · omega
  · rw [Oct.items]
    exact List.perm_append_singleton no l

theorem total_init (d : Nat) : total (fun _ => Oct.leaf (d + 1) 0 []) = [] := by
  simp [total, Oct.items]

theorem init_brOK (d : Nat) (c : Fin 3 → α) :
    BrOK nv pos d c (fun _ => Oct.leaf (d + 1) 0 []) := by
  intro b _
  refine ⟨?_, ?_⟩
  · unfold WF
    exact ⟨rfl, CapOK.empty nv, fun _ => by simp⟩
  · intro x hx; simp [Oct.items] at hx

theorem add_spec {a : Nat} (hnv : nv = 2 ^ a) :
    ∀ f d, 20 < d + f → AddSpec nv pos d (add nv pos f) ∨ 20 < d := by
  intro f
  induction f with
  | zero => intro d h; right; omega
  | succ f ih =>
    intro d h
    by_cases hd20 : 20 < d
    · exact Or.inr hd20
    left
    intro q c no hW hat
    cases q with
    | leaf d1 cap l =>
      unfold WF at hW
      obtain ⟨rfl, C, hl⟩ := hW
      unfold add
      by_cases hd : d1 < 20
      · rw [if_pos hd]
        by_cases hlt : l.length < nv
        · rw [if_pos hlt]
          exact append_spec hnv C (Or.inl hlt) no
        · have heq : l.length = nv := by have := hl hd; omega
          rw [if_neg hlt, if_pos heq]
          have hf : AddSpec nv pos (d1 + 1) (add nv pos f) := by
            rcases ih (d1 + 1) (by omega) with h1 | h1
            · exact h1
            · omega
          obtain ⟨br1, h1, h2, h3⟩ := fold_spec hf (c := c) l _ (init_brOK d1 c)
            (by intro x hx; rw [total_init] at hx; simp at hx) hat
          rw [total_init, List.nil_append] at h3
          obtain ⟨br2, h4, h5, h6⟩ := addBr_spec hf h2
            (fun x hx => hat x (h3.subset hx)) no
          simp only [h1, h4, Option.map_some]
          refine ⟨_, rfl, ?_, ?_⟩
          · unfold WF
            refine ⟨rfl, hd, by omega, ?_, h5⟩
            rw [h6.length_eq, List.length_cons, h3.length_eq, heq]
          · rw [items_branch]
            exact h6.trans (h3.cons no)
      · rw [if_neg hd]
        exact append_spec hnv C (Or.inr (by omega)) no
    | branch d1 nb br =>
      unfold WF at hW
      obtain ⟨rfl, hd, hnb, htot, H⟩ := hW
      unfold add
      rw [if_pos hd, if_neg (by omega)]
      have hf : AddSpec nv pos (d1 + 1) (add nv pos f) := by
        rcases ih (d1 + 1) (by omega) with h1 | h1
        · exact h1
        · omega
      rw [items_branch] at hat
      obtain ⟨br2, h4, h5, h6⟩ := addBr_spec hf H hat no
      simp only [h4, Option.map_some]
      refine ⟨_, rfl, ?_, ?_⟩
      · unfold WF
        refine ⟨rfl, hd, by omega, ?_, h5⟩
        rw [h6.length_eq, List.length_cons, htot]
      · rw [items_branch, items_branch]
        exact h6

theorem del_spec {a : Nat} (hnv : nv = 2 ^ a) : ∀ (q : Oct) (d : Nat) (c : Fin 3 → α) (x : Fin 3 → α)
    (no : Nat), WF nv pos q d c → (no ∈ q.items → x = pos no) →
    ∃ q', del nv q (aff d c x) no = some q' ∧ WF nv pos q' d c ∧
      ((no ∈ q.items ∧ q.items.Perm (no :: q'.items)) ∨ (no ∉ q.items ∧ q' = q)) := by
  intro q
  induction q with
  | leaf d1 cap l =>
    intro d c x no hW hno
    unfold WF at hW
    obtain ⟨rfl, C, hl⟩ := hW
    rw [Oct.items] at *
    unfold del
    by_cases hc : cap ≠ 0
    · rw [if_pos hc]
      by_cases hm : no ∈ l
      · rw [if_pos hm]
        have hp := List.perm_cons_erase hm
        have hlen : (l.erase no).length + 1 = l.length := by
          rw [hp.length_eq]; simp
        refine ⟨_, rfl, ?_, Or.inl ⟨hm, ?_⟩⟩
        · unfold WF
          refine ⟨rfl, ?_, fun h => by have := hl h; omega⟩
          rw [← hlen] at C
          exact C.del hnv
        · rw [Oct.items]; exact hp
      · rw [if_neg hm]
        exact ⟨_, rfl, by unfold WF; exact ⟨rfl, C, hl⟩, Or.inr ⟨hm, rfl⟩⟩
    · rw [if_neg hc]
      have h0 : l.length = 0 := C.1.1 (by omega)
      rw [if_neg (by omega)]
      refine ⟨_, rfl, by unfold WF; exact ⟨rfl, C, hl⟩, Or.inr ⟨?_, rfl⟩⟩
      rw [List.length_eq_zero_iff.1 h0]; simp
  | branch d1 nb br ih =>
    intro d c x no hW hno
    unfold WF at hW
    obtain ⟨rfl, hd, hnb, htot, H⟩ := hW
    rw [items_branch] at *
    have hb := quadOf_lt x c
    obtain ⟨hWb, hQ⟩ := H _ hb
    -- where the vertex can be
    have hloc : no ∈ total br ↔ no ∈ (br (quadOf x c)).items := by
      constructor
      · intro hm
        obtain ⟨b, hb', hm'⟩ := mem_total.1 hm
        have h1 := (H b hb').2 no hm'
        rw [← hno hm] at h1
        rw [h1]; exact hm'
      · intro hm; exact mem_total.2 ⟨_, hb, hm⟩
    obtain ⟨q', h1, h2, h3⟩ := ih (quadOf x c) (d1 + 1) _ x no hWb (fun hm => hno (hloc.2 hm))
    unfold del
    simp only [quad_aff, shift_aff, h1]
    have hcb := hWb.cnt
    have hcq := h2.cnt
    rcases h3 with ⟨hm, hp⟩ | ⟨hm, rfl⟩
    · have hlen : (br (quadOf x c)).items.length = q'.items.length + 1 := by
        rw [hp.length_eq]; simp
      have hpt := total_del hb hp
      have hlt : (total br).length = (total (setBr br (quadOf x c) q')).length + 1 := by
        rw [hpt.length_eq]; simp
      have hset : BrOK nv pos d1 c (setBr br (quadOf x c) q') :=
        BrOK.set H h2 (fun y hy => hQ y (hp.symm.subset (by simp [hy])))
      have hin : no ∈ total br := hloc.2 hm
      by_cases hn : nb = nv + 1
      · rw [if_pos hn, if_pos (by omega), if_pos (by rw [items_branch]; omega)]
        refine ⟨_, rfl, ?_, Or.inl ⟨hin, ?_⟩⟩
        · unfold WF
          have e : (total (setBr br (quadOf x c) q')).length = nv := by omega
          rw [items_branch, e]
          exact ⟨rfl, CapOK.full hnv, fun _ => le_refl _⟩
        · rw [Oct.items, items_branch]; exact hpt
      · rw [if_neg hn, if_neg (by omega)]
        refine ⟨_, rfl, ?_, Or.inl ⟨hin, ?_⟩⟩
        · unfold WF
          exact ⟨rfl, hd, by omega, by omega, hset⟩
        · rw [items_branch]; exact hpt
    · have e : setBr br (quadOf x c) (br (quadOf x c)) = br := by
        funext j; by_cases hj : j = quadOf x c
        · subst hj; simp [setBr]
        · simp [setBr, hj]
      have hnot : no ∉ total br := fun h => hm (hloc.1 h)
      rw [e]
      by_cases hn : nb = nv + 1
      · rw [if_pos hn, if_neg (by omega)]
        refine ⟨_, rfl, ?_, Or.inr ⟨hnot, rfl⟩⟩
        unfold WF; exact ⟨rfl, hd, hnb, htot, H⟩
      · rw [if_neg hn, if_pos (le_refl _)]
        refine ⟨_, rfl, ?_, Or.inr ⟨hnot, rfl⟩⟩
        unfold WF; exact ⟨rfl, hd, hnb, htot, H⟩

end Mmg.Oct
