/-
  What `MMG5_chkmanimesh` accepts.
-/
import Verif.ManiModel
import Mathlib.Data.Nat.Find
import Mathlib.Tactic.IntervalCases

namespace Mmg.Mani

/-- A sequence of `n + 1` triangles around a vertex, from `s`, in the direction `nx`: `b j` is the triangle and the place of the vertex in it,
`x j` the next triangle and the place in it of the edge that is crossed. -/
structure Turn (M : Mesh) (nx : Nat → Nat) (s : Nat × Nat) (n : Nat) (b : Nat → Nat × Nat) : Prop where
  first : b 0 = s
  next : ∀ j < n, (b (j + 1)).1 = (M.adj (b j).1 (nx (b j).2)).1 ∧ (b (j + 1)).2 = nx (M.adj (b j).1 (nx (b j).2)).2
  pos : ∀ j ≤ n, (b j).1 ≠ 0
  idx : ∀ j < n, (M.adj (b j).1 (nx (b j).2)).2 < 3
  inj : ∀ i ≤ n, ∀ j ≤ n, (b i).1 = (b j).1 → i = j
  few : n < M.nt

/-- The edge crossed after `b j`. -/
def cross (M : Mesh) (nx : Nat → Nat) (b : Nat → Nat × Nat) (j : Nat) : Nat × Nat := M.adj (b j).1 (nx (b j).2)

/-- A closed ball: after the last triangle comes the first one. -/
def Closed (M : Mesh) (s : Nat × Nat) (n : Nat) (b : Nat → Nat × Nat) : Prop :=
  Turn M inxt s n b ∧ (cross M inxt b n).1 = s.1 ∧ inxt (cross M inxt b n).2 = s.2

/-- An open sequence: after the last triangle there is none. -/
def Open (M : Mesh) (nx : Nat → Nat) (s : Nat × Nat) (n : Nat) (b : Nat → Nat × Nat) : Prop :=
  Turn M nx s n b ∧ (cross M nx b n).1 = 0

variable {M : Mesh} {nx : Nat → Nat} {s : Nat × Nat} {n : Nat} {b : Nat → Nat × Nat}

/-- The walk goes on while the test does not hold. -/
theorem walk_skip (h : Turn M nx s n b) (p : Nat × Nat → Bool) (start : Nat) : ∀ (d a fuel : Nat), a + d ≤ n →
    (∀ j, a ≤ j → j < a + d → p (cross M nx b j) = false) →
    (∀ j, a ≤ j → j < a + d → (b (j + 1)).1 ≠ start) →
    walk M nx p start (fuel + d) (b a) = walk M nx p start fuel (b (a + d)) := by
  intro d
  induction d with
  | zero => intro a fuel _ _ _; rfl
  | succ d ih =>
    intro a fuel hd hp hst
    have hx := h.next a (by omega)
    have h0 : (cross M nx b a).1 ≠ 0 := by
      show (M.adj (b a).1 (nx (b a).2)).1 ≠ 0
      rw [← hx.1]; exact h.pos _ (by omega)
    have h1 := hp a le_rfl (by omega)
    have h2 := hst a le_rfl (by omega)
    rw [hx.1] at h2
    have e : b (a + 1) = ((M.adj (b a).1 (nx (b a).2)).1, nx (M.adj (b a).1 (nx (b a).2)).2) := Prod.ext hx.1 hx.2
    have step : walk M nx p start (fuel + d + 1) (b a) = walk M nx p start (fuel + d) (b (a + 1)) := by
      rw [e]
      show (if (cross M nx b a).1 = 0 then _ else if p (cross M nx b a) = true then _ else _) = _
      rw [if_neg h0, if_neg (by rw [h1]; simp), if_neg h2]
    rw [show fuel + (d + 1) = fuel + d + 1 by omega, step, ih (a + 1) fuel (by omega) (fun j hj hj' => hp j (by omega) (by omega))
      (fun j hj hj' => hst j (by omega) (by omega)), show a + 1 + d = a + (d + 1) by omega]

theorem walk_stop (p : Nat × Nat → Bool) (start fuel j : Nat)
    (h : (cross M nx b j).1 = 0 ∨ p (cross M nx b j) = true) :
    walk M nx p start (fuel + 1) (b j) = some (cross M nx b j) := by
  show (if (cross M nx b j).1 = 0 then some (cross M nx b j) else if p (cross M nx b j) = true then some (cross M nx b j) else _) = _
  by_cases h0 : (cross M nx b j).1 = 0
  · rw [if_pos h0]
  · rw [if_neg h0, if_pos (h.resolve_left h0)]

theorem walk_start (p : Nat × Nat → Bool) (start fuel j : Nat) (h0 : (cross M nx b j).1 ≠ 0)
    (h : p (cross M nx b j) = false) (hs : (cross M nx b j).1 = start) :
    walk M nx p start (fuel + 1) (b j) = some ((cross M nx b j).1, nx (cross M nx b j).2) := by
  show (if (cross M nx b j).1 = 0 then some (cross M nx b j) else if p (cross M nx b j) = true then some (cross M nx b j) else
    if (cross M nx b j).1 = start then some ((cross M nx b j).1, nx (cross M nx b j).2) else _) = _
  rw [if_neg h0, if_neg (by rw [h]; simp), if_pos hs]

/-- First place from `a` where the test holds or the sequence ends. -/
theorem first_hit (p : Nat → Bool) (a n : Nat) (ha : a ≤ n) :
    ∃ d, a + d ≤ n ∧ (∀ j, a ≤ j → j < a + d → p j = false) ∧ (a + d < n → p (a + d) = true) := by
  by_cases h : ∃ d, a + d < n ∧ p (a + d) = true
  · refine ⟨Nat.find h, (Nat.find_spec h).1.le, ?_, fun _ => (Nat.find_spec h).2⟩
    intro j hj hj'
    have := Nat.find_min h (m := j - a) (by omega)
    rw [show a + (j - a) = j by omega] at this
    have hn := (Nat.find_spec h).1
    exact Bool.eq_false_iff.2 fun hh => this ⟨by omega, hh⟩
  · refine ⟨n - a, by omega, ?_, by omega⟩
    intro j hj hj'
    exact Bool.eq_false_iff.2 fun hh => h ⟨j - a, by omega, by rw [show a + (j - a) = j by omega]; exact hh⟩

theorem Turn.cross_eq (h : Turn M nx s n b) {j : Nat} (hj : j < n) : (cross M nx b j).1 = (b (j + 1)).1 :=
  ((h.next j hj).1).symm

theorem Turn.pair (h : Turn M nx s n b) {j : Nat} (hj : j < n) :
    b (j + 1) = ((cross M nx b j).1, nx (cross M nx b j).2) := by
  have e := h.next j hj
  rw [← show (b (j + 1)).1 = (cross M nx b j).1 from e.1, ← show (b (j + 1)).2 = nx (cross M nx b j).2 from e.2]

theorem Turn.ne_start (h : Turn M nx s n b) {j : Nat} (hj : j < n) : (b (j + 1)).1 ≠ s.1 := by
  intro e
  rw [← h.first] at e
  have := h.inj (j + 1) (by omega) 0 (by omega) e
  omega

/-! ### References -/

/-- **C77** (inside) : at a vertex whose triangles form a closed ball, the check started on an edge of the front
accepts exactly when the triangles with the reference of the first one are consecutive. -/
theorem C77_closed (h : Closed M s n b) (hne : M.ref (b n).1 ≠ M.ref s.1) :
    ∃ r, chkmaniball M false s.1 s.2 = some r ∧
      (r = true ↔ ∀ j ≤ n, M.ref (b j).1 = M.ref s.1 → ∀ i ≤ j, M.ref (b i).1 = M.ref s.1) := by
  obtain ⟨ht, hc1, hc2⟩ := h
  set p := fun j => decide (M.ref (b (j + 1)).1 ≠ M.ref s.1) with hp
  -- first loop
  obtain ⟨d, hd, hd1, hd2⟩ := first_hit p 0 n (Nat.zero_le _)
  have hdn : d < n := by
    rcases Nat.lt_or_ge d n with hlt | hge
    · exact hlt
    · exfalso
      obtain rfl : d = n := by omega
      rcases Nat.eq_zero_or_pos d with h0 | h0
      · rw [h0, ht.first] at hne; exact hne rfl
      · have := hd1 (d - 1) (by omega) (by omega)
        simp only [hp, decide_eq_false_iff_not, not_not] at this
        rw [show d - 1 + 1 = d by omega] at this
        exact hne this
  have hst1 : ∀ j < n, stop M false (M.ref s.1) false (cross M inxt b j) = p j := by
    intro j hj
    simp only [stop, Bool.false_eq_true, if_false, ht.cross_eq hj, hp]
  have hst2 : ∀ j < n, stop M false (M.ref s.1) true (cross M inxt b j) = !p j := by
    intro j hj
    simp only [stop, Bool.false_eq_true, if_false, if_true, ht.cross_eq hj, hp, decide_not, Bool.not_not]
  have w1 : walk M inxt (stop M false (M.ref s.1) false) s.1 (M.nt + 1) (s.1, s.2) = some (cross M inxt b d) := by
    rw [show M.nt + 1 = (M.nt - d + 1) + d by have := ht.few; omega, show ((s.1, s.2) : Nat × Nat) = b 0 from ht.first.symm,
      walk_skip ht _ _ d 0 _ (by omega) (fun j _ hj => by rw [hst1 j (by omega)]; exact hd1 j (by omega) hj)
        (fun j _ hj => ht.ne_start (by omega)), Nat.zero_add]
    refine walk_stop _ _ _ _ (.inr ?_)
    rw [hst1 d hdn]
    have := hd2 (by omega)
    rwa [Nat.zero_add] at this
  have hpd : p d = true := by have := hd2 (by omega); rwa [Nat.zero_add] at this
  -- second loop
  obtain ⟨f, hf, hf1, hf2⟩ := first_hit (fun j => !p j) (d + 1) n (by omega)
  have eb : ((cross M inxt b d).1, inxt (cross M inxt b d).2) = b (d + 1) :=
    (ht.pair hdn).symm
  have h0 : (cross M inxt b d).1 ≠ 0 := by rw [ht.cross_eq hdn]; exact ht.pos _ (by omega)
  have w2 : walk M inxt (stop M false (M.ref s.1) true) s.1 (M.nt + 1) (b (d + 1)) =
      some (cross M inxt b (d + 1 + f)) := by
    rw [show M.nt + 1 = (M.nt - f + 1) + f by have := ht.few; omega,
      walk_skip ht _ _ f (d + 1) _ (by omega) (fun j hj hj' => by rw [hst2 j (by omega)]; exact hf1 j hj hj')
        (fun j _ hj => ht.ne_start (by omega))]
    refine walk_stop _ _ _ _ (.inr ?_)
    rcases Nat.lt_or_ge (d + 1 + f) n with hlt | hge
    · rw [hst2 _ hlt]
      exact hf2 hlt
    · obtain he : d + 1 + f = n := by omega
      rw [he]
      simp only [stop, Bool.false_eq_true, if_false, if_true, hc1, decide_true]
  refine ⟨decide ((cross M inxt b (d + 1 + f)).1 = s.1), ?_, ?_⟩
  · unfold chkmaniball
    simp only [w1, Option.bind_some, if_neg h0, eb, w2, Option.map_some]
  · have hpre : ∀ i ≤ d, M.ref (b i).1 = M.ref s.1 := by
      intro i hi
      rcases Nat.eq_zero_or_pos i with h0 | h0
      · rw [h0, ht.first]
      · have := hd1 (i - 1) (by omega) (by omega)
        simp only [hp, decide_eq_false_iff_not, not_not] at this
        rwa [show i - 1 + 1 = i by omega] at this
    have hpd' : M.ref (b (d + 1)).1 ≠ M.ref s.1 := by simpa [hp] using hpd
    rw [decide_eq_true_iff]
    rcases Nat.lt_or_ge (d + 1 + f) n with hlt | hge
    · have hbad : M.ref (b (d + 1 + f + 1)).1 = M.ref s.1 := by
        have := hf2 hlt
        simpa [hp] using this
      constructor
      · intro e
        rw [ht.cross_eq hlt] at e
        exact absurd e (ht.ne_start hlt)
      · intro hh
        exact absurd (hh (d + 1 + f + 1) (by omega) hbad (d + 1) (by omega)) hpd'
    · obtain he : d + 1 + f = n := by omega
      rw [he]
      refine ⟨fun _ => ?_, fun _ => hc1⟩
      intro j hj hr i hi
      rcases Nat.lt_or_ge d j with hdj | hdj
      · exfalso
        rcases Nat.lt_or_ge (d + 1) j with h2 | h2
        · have := hf1 (j - 1) (by omega) (by omega)
          simp only [hp, Bool.not_eq_false', decide_eq_true_eq] at this
          rw [show j - 1 + 1 = j by omega] at this
          exact this hr
        · obtain rfl : j = d + 1 := by omega
          exact hpd' hr
      · exact hpre i (by omega)

/-- **C77** (boundary) : at a vertex of the boundary of the mesh, the check started on an edge of the front accepts
exactly when all the triangles on one side of this edge have the reference of the first one and none on the other
side has it. -/
theorem C77_open {m : Nat} {c : Nat → Nat × Nat} (h : Open M inxt s n b) (hc : Open M iprv s (m + 1) c)
    (hne : M.ref (c 1).1 ≠ M.ref s.1) :
    ∃ r, chkmaniball M false s.1 s.2 = some r ∧
      (r = true ↔ (∀ j ≤ n, M.ref (b j).1 = M.ref s.1) ∧ ∀ j, 1 ≤ j → j ≤ m + 1 → M.ref (c j).1 ≠ M.ref s.1) := by
  obtain ⟨ht, hb0⟩ := h
  obtain ⟨hu, hc0⟩ := hc
  set p := fun j => decide (M.ref (b (j + 1)).1 ≠ M.ref s.1) with hp
  obtain ⟨d, hd, hd1, hd2⟩ := first_hit p 0 n (Nat.zero_le _)
  rw [Nat.zero_add] at hd hd1 hd2
  have hst1 : ∀ j < n, stop M false (M.ref s.1) false (cross M inxt b j) = p j := by
    intro j hj
    simp only [stop, Bool.false_eq_true, if_false, ht.cross_eq hj, hp]
  have hst2 : ∀ j < n, stop M false (M.ref s.1) true (cross M inxt b j) = !p j := by
    intro j hj
    simp only [stop, Bool.false_eq_true, if_false, if_true, ht.cross_eq hj, hp, decide_not, Bool.not_not]
  have w1 : walk M inxt (stop M false (M.ref s.1) false) s.1 (M.nt + 1) (s.1, s.2) = some (cross M inxt b d) := by
    rw [show M.nt + 1 = (M.nt - d + 1) + d by have := ht.few; omega, show ((s.1, s.2) : Nat × Nat) = b 0 from ht.first.symm,
      walk_skip ht _ _ d 0 _ (by omega) (fun j _ hj => by rw [hst1 j (by omega)]; exact hd1 j (by omega) (by omega))
        (fun j _ hj => ht.ne_start (by omega)), Nat.zero_add]
    refine walk_stop _ _ _ _ ?_
    rcases Nat.lt_or_ge d n with hlt | hge
    · exact .inr (by rw [hst1 d hlt]; exact hd2 hlt)
    · obtain rfl : d = n := by omega
      exact .inl hb0
  have hpre : ∀ i ≤ d, M.ref (b i).1 = M.ref s.1 := by
    intro i hi
    rcases Nat.eq_zero_or_pos i with h0 | h0
    · rw [h0, ht.first]
    · have := hd1 (i - 1) (by omega) (by omega)
      simp only [hp, decide_eq_false_iff_not, not_not] at this
      rwa [show i - 1 + 1 = i by omega] at this
  rcases Nat.lt_or_ge d n with hlt | hge
  · -- a change of reference: rejected
    have h0 : (cross M inxt b d).1 ≠ 0 := by rw [ht.cross_eq hlt]; exact ht.pos _ (by omega)
    obtain ⟨f, hf, hf1, hf2⟩ := first_hit (fun j => !p j) (d + 1) n (by omega)
    have eb : ((cross M inxt b d).1, inxt (cross M inxt b d).2) = b (d + 1) :=
      (ht.pair hlt).symm
    have w2 : walk M inxt (stop M false (M.ref s.1) true) s.1 (M.nt + 1) (b (d + 1)) =
        some (cross M inxt b (d + 1 + f)) := by
      rw [show M.nt + 1 = (M.nt - f + 1) + f by have := ht.few; omega,
        walk_skip ht _ _ f (d + 1) _ (by omega) (fun j hj hj' => by rw [hst2 j (by omega)]; exact hf1 j hj hj')
          (fun j _ hj => ht.ne_start (by omega))]
      refine walk_stop _ _ _ _ ?_
      rcases Nat.lt_or_ge (d + 1 + f) n with h2 | h2
      · exact .inr (by rw [hst2 _ h2]; exact hf2 h2)
      · obtain he : d + 1 + f = n := by omega
        exact .inl (by rw [he]; exact hb0)
    refine ⟨decide ((cross M inxt b (d + 1 + f)).1 = s.1), ?_, ?_⟩
    · unfold chkmaniball
      simp only [w1, Option.bind_some, if_neg h0, eb, w2, Option.map_some]
    · rw [decide_eq_true_iff]
      constructor
      · intro e
        exfalso
        rcases Nat.lt_or_ge (d + 1 + f) n with h2 | h2
        · rw [ht.cross_eq h2] at e
          exact ht.ne_start h2 e
        · obtain he : d + 1 + f = n := by omega
          rw [he, hb0] at e
          exact ht.pos 0 (by omega) (by rw [ht.first]; exact e.symm)
      · rintro ⟨hh, -⟩
        have := hd2 hlt
        simp only [hp, decide_eq_true_eq] at this
        exact absurd (hh (d + 1) (by omega)) this
  · obtain rfl : d = n := by omega
    -- the other side
    have hx := hu.next 0 (by omega)
    rw [hu.first] at hx
    have hq0 : (M.adj s.1 (iprv s.2)).1 ≠ 0 := by rw [← hx.1]; exact hu.pos 1 (by omega)
    have ec : ((M.adj s.1 (iprv s.2)).1, iprv (M.adj s.1 (iprv s.2)).2) = c 1 := by
      have := hu.pair (j := 0) (by omega)
      rw [cross, hu.first] at this
      exact this.symm
    obtain ⟨f, hf, hf1, hf2⟩ := first_hit (fun j => decide (M.ref (c (j + 1)).1 = M.ref s.1)) 1 (m + 1) (by omega)
    have hst3 : ∀ j < m + 1, stop M false (M.ref s.1) true (cross M iprv c j) =
        decide (M.ref (c (j + 1)).1 = M.ref s.1) := by
      intro j hj
      simp only [stop, Bool.false_eq_true, if_false, if_true, hu.cross_eq hj]
    have w2 : walk M iprv (stop M false (M.ref s.1) true) s.1 (M.nt + 1) (c 1) = some (cross M iprv c (1 + f)) := by
      rw [show M.nt + 1 = (M.nt - f + 1) + f by have := hu.few; omega,
        walk_skip hu _ _ f 1 _ (by omega) (fun j hj hj' => by rw [hst3 j (by omega)]; exact hf1 j hj hj')
          (fun j _ hj => hu.ne_start (by omega))]
      refine walk_stop _ _ _ _ ?_
      rcases Nat.lt_or_ge (1 + f) (m + 1) with h2 | h2
      · exact .inr (by rw [hst3 _ h2]; exact hf2 h2)
      · obtain he : 1 + f = m + 1 := by omega
        exact .inl (by rw [he]; exact hc0)
    refine ⟨decide ((cross M iprv c (1 + f)).1 = 0), ?_, ?_⟩
    · unfold chkmaniball
      simp only [w1, Option.bind_some, if_pos hb0, if_neg hq0, ec, w2, Option.map_some]
    · rw [decide_eq_true_iff]
      rcases Nat.lt_or_ge (1 + f) (m + 1) with h2 | h2
      · constructor
        · intro e
          rw [hu.cross_eq h2] at e
          exact absurd e (hu.pos _ (by omega))
        · rintro ⟨-, hh⟩
          have := hf2 h2
          exact absurd (of_decide_eq_true this) (hh (1 + f + 1) (by omega) (by omega))
      · obtain he : 1 + f = m + 1 := by omega
        rw [he]
        refine ⟨fun _ => ⟨hpre, ?_⟩, fun _ => hc0⟩
        intro j hj hj'
        rcases Nat.lt_or_ge 1 j with h1 | h1
        · have := hf1 (j - 1) (by omega) (by omega)
          simp only [decide_eq_false_iff_not] at this
          rwa [show j - 1 + 1 = j by omega] at this
        · obtain rfl : j = 1 := by omega
          exact hne

/-! ### References kept: edges of the level set -/

/-- An edge crossed after `b j` is an edge of the level set. -/
def isoAt (M : Mesh) (nx : Nat → Nat) (b : Nat → Nat × Nat) (j : Nat) : Prop :=
  M.edg (cross M nx b j).1 (cross M nx b j).2 = M.iso

instance (M : Mesh) (nx : Nat → Nat) (b : Nat → Nat × Nat) (j : Nat) : Decidable (isoAt M nx b j) := by
  unfold isoAt; infer_instance

theorem stop_keep (r : Int) (same : Bool) (j : Nat) : stop M true r same (cross M nx b j) = decide (isoAt M nx b j) := by
  simp [stop, isoAt]

/-- **C77** (references kept, inside) : the check accepts exactly when at most one other edge of the level set comes
out of the vertex. -/
theorem C77_closed_keep (h : Closed M s n b) (hiso : isoAt M inxt b n) :
    ∃ r, chkmaniball M true s.1 s.2 = some r ∧
      (r = true ↔ ∀ i < n, ∀ j < n, isoAt M inxt b i → isoAt M inxt b j → i = j) := by
  obtain ⟨ht, hc1, hc2⟩ := h
  have go : ∀ same, ∀ a ≤ n, ∃ d, a + d ≤ n ∧ (∀ j, a ≤ j → j < a + d → ¬ isoAt M inxt b j) ∧ isoAt M inxt b (a + d) ∧
      walk M inxt (stop M true (M.ref s.1) same) s.1 (M.nt + 1) (b a) = some (cross M inxt b (a + d)) := by
    intro same a ha
    obtain ⟨d, hd, hd1, hd2⟩ := first_hit (fun j => decide (isoAt M inxt b j)) a n ha
    have hi : isoAt M inxt b (a + d) := by
      rcases Nat.lt_or_ge (a + d) n with hlt | hge
      · exact of_decide_eq_true (hd2 hlt)
      · obtain he : a + d = n := by omega
        rw [he]; exact hiso
    refine ⟨d, hd, fun j hj hj' => of_decide_eq_false (hd1 j hj hj'), hi, ?_⟩
    rw [show M.nt + 1 = (M.nt - d + 1) + d by have := ht.few; omega,
      walk_skip ht _ _ d a _ (by omega) (fun j hj hj' => by rw [stop_keep]; exact hd1 j hj hj')
        (fun j _ hj => ht.ne_start (by omega))]
    exact walk_stop _ _ _ _ (.inr (by rw [stop_keep]; exact decide_eq_true hi))
  obtain ⟨d, hd, hd1, hd2, w1⟩ := go false 0 (Nat.zero_le _)
  rw [Nat.zero_add] at hd hd1 hd2 w1
  have w1' : walk M inxt (stop M true (M.ref s.1) false) s.1 (M.nt + 1) (s.1, s.2) = some (cross M inxt b d) := by
    rw [show ((s.1, s.2) : Nat × Nat) = b 0 from ht.first.symm]; exact w1
  rcases Nat.lt_or_ge d n with hlt | hge
  · obtain ⟨f, hf, hf1, hf2, w2⟩ := go true (d + 1) (by omega)
    have h0 : (cross M inxt b d).1 ≠ 0 := by rw [ht.cross_eq hlt]; exact ht.pos _ (by omega)
    refine ⟨decide ((cross M inxt b (d + 1 + f)).1 = s.1), ?_, ?_⟩
    · unfold chkmaniball
      simp only [w1', Option.bind_some, if_neg h0, ← ht.pair hlt, w2, Option.map_some]
    · rw [decide_eq_true_iff]
      rcases Nat.lt_or_ge (d + 1 + f) n with h2 | h2
      · constructor
        · intro e
          rw [ht.cross_eq h2] at e
          exact absurd e (ht.ne_start h2)
        · intro hh
          have := hh d hlt (d + 1 + f) h2 hd2 hf2
          omega
      · obtain he : d + 1 + f = n := by omega
        refine ⟨fun _ => ?_, fun _ => by rw [he]; exact hc1⟩
        have key : ∀ i < n, isoAt M inxt b i → i = d := by
          intro i hi h1
          rcases Nat.lt_trichotomy i d with h3 | h3 | h3
          · exact absurd h1 (hd1 i (Nat.zero_le _) (by omega))
          · exact h3
          · exact absurd h1 (hf1 i (by omega) (by omega))
        intro i hi j hj h1 h3
        rw [key i hi h1, key j hj h3]
  · obtain rfl : d = n := by omega
    obtain ⟨f, hf, hf1, hf2, w2⟩ := go true 0 (Nat.zero_le _)
    rw [Nat.zero_add] at hf hf1 hf2 w2
    have h0 : (cross M inxt b d).1 ≠ 0 := by
      rw [hc1, ← ht.first]; exact ht.pos _ (Nat.zero_le _)
    have e0 : ((cross M inxt b d).1, inxt (cross M inxt b d).2) = b 0 := by rw [ht.first, hc1, hc2]
    have efd : f = d := by
      rcases Nat.lt_or_ge f d with h3 | h3
      · exact absurd hf2 (hd1 f (Nat.zero_le _) (by omega))
      · omega
    rw [efd] at w2
    refine ⟨decide ((cross M inxt b d).1 = s.1), ?_, ?_⟩
    · unfold chkmaniball
      simp only [w1', Option.bind_some, if_neg h0, e0, w2, Option.map_some]
    · rw [decide_eq_true_iff]
      exact ⟨fun _ i hi j hj h1 _ => absurd h1 (hd1 i (Nat.zero_le _) (by omega)), fun _ => hc1⟩

/-- **C77** (references kept, boundary) : the check accepts exactly when the first edge is the only edge of the level set
at the vertex. -/
theorem C77_open_keep {m : Nat} {c : Nat → Nat × Nat} (h : Open M inxt s n b) (hc : Open M iprv s (m + 1) c) :
    ∃ r, chkmaniball M true s.1 s.2 = some r ∧
      (r = true ↔ (∀ j < n, ¬ isoAt M inxt b j) ∧ ∀ j, 1 ≤ j → j < m + 1 → ¬ isoAt M iprv c j) := by
  obtain ⟨ht, hb0⟩ := h
  obtain ⟨hu, hc0⟩ := hc
  have go : ∀ {nx : Nat → Nat} {b : Nat → Nat × Nat} {n : Nat}, Turn M nx s n b → (cross M nx b n).1 = 0 →
      ∀ same, ∀ a ≤ n, ∃ d, a + d ≤ n ∧ (∀ j, a ≤ j → j < a + d → ¬ isoAt M nx b j) ∧
      (a + d < n → isoAt M nx b (a + d)) ∧
      walk M nx (stop M true (M.ref s.1) same) s.1 (M.nt + 1) (b a) = some (cross M nx b (a + d)) := by
    intro nx b n ht hb0 same a ha
    obtain ⟨d, hd, hd1, hd2⟩ := first_hit (fun j => decide (isoAt M nx b j)) a n ha
    refine ⟨d, hd, fun j hj hj' => of_decide_eq_false (hd1 j hj hj'), fun hlt => of_decide_eq_true (hd2 hlt), ?_⟩
    rw [show M.nt + 1 = (M.nt - d + 1) + d by have := ht.few; omega,
      walk_skip ht _ _ d a _ (by omega) (fun j hj hj' => by rw [stop_keep]; exact hd1 j hj hj')
        (fun j _ hj => ht.ne_start (by omega))]
    refine walk_stop _ _ _ _ ?_
    rcases Nat.lt_or_ge (a + d) n with hlt | hge
    · exact .inr (by rw [stop_keep]; exact hd2 hlt)
    · obtain he : a + d = n := by omega
      exact .inl (by rw [he]; exact hb0)
  obtain ⟨d, hd, hd1, hd2, w1⟩ := go ht hb0 false 0 (Nat.zero_le _)
  rw [Nat.zero_add] at hd hd1 hd2 w1
  have w1' : walk M inxt (stop M true (M.ref s.1) false) s.1 (M.nt + 1) (s.1, s.2) = some (cross M inxt b d) := by
    rw [show ((s.1, s.2) : Nat × Nat) = b 0 from ht.first.symm]; exact w1
  rcases Nat.lt_or_ge d n with hlt | hge
  · obtain ⟨f, hf, hf1, hf2, w2⟩ := go ht hb0 true (d + 1) (by omega)
    have h0 : (cross M inxt b d).1 ≠ 0 := by rw [ht.cross_eq hlt]; exact ht.pos _ (by omega)
    refine ⟨decide ((cross M inxt b (d + 1 + f)).1 = s.1), ?_, ?_⟩
    · unfold chkmaniball
      simp only [w1', Option.bind_some, if_neg h0, ← ht.pair hlt, w2, Option.map_some]
    · rw [decide_eq_true_iff]
      constructor
      · intro e
        exfalso
        rcases Nat.lt_or_ge (d + 1 + f) n with h2 | h2
        · rw [ht.cross_eq h2] at e
          exact ht.ne_start h2 e
        · obtain he : d + 1 + f = n := by omega
          rw [he, hb0] at e
          exact ht.pos 0 (by omega) (by rw [ht.first]; exact e.symm)
      · rintro ⟨hh, -⟩
        exact absurd (hd2 hlt) (hh d hlt)
  · obtain rfl : d = n := by omega
    have hp := hu.pair (j := 0) (by omega)
    rw [cross, hu.first] at hp
    have hq0 : (M.adj s.1 (iprv s.2)).1 ≠ 0 := by
      have := hu.pos 1 (by omega)
      rwa [hp] at this
    obtain ⟨f, hf, hf1, hf2, w2⟩ := go hu hc0 true 1 (by omega)
    refine ⟨decide ((cross M iprv c (1 + f)).1 = 0), ?_, ?_⟩
    · unfold chkmaniball
      simp only [w1', Option.bind_some, if_pos hb0, if_neg hq0, ← hp, Nat.zero_add, w2, Option.map_some]
    · rw [decide_eq_true_iff]
      rcases Nat.lt_or_ge (1 + f) (m + 1) with h2 | h2
      · constructor
        · intro e
          rw [hu.cross_eq h2] at e
          exact absurd e (hu.pos _ (by omega))
        · rintro ⟨-, hh⟩
          exact absurd (hf2 h2) (hh (1 + f) (by omega) h2)
      · obtain he : 1 + f = m + 1 := by omega
        rw [he]
        refine ⟨fun _ => ⟨fun j hj => hd1 j (Nat.zero_le _) (by omega), ?_⟩, fun _ => hc0⟩
        intro j hj hj'
        exact hf1 j hj (by omega)

/-! ### The mesh -/

/-- The vertex of the corner `s` has a closed ball, or sequences on both sides that end at the boundary. -/
def HasBall (M : Mesh) (s : Nat × Nat) : Prop :=
  (∃ n b, Closed M s n b) ∨ ∃ n b m c, Open M inxt s n b ∧ Open M iprv s (m + 1) c

/-- The two parts are separated at this vertex. -/
def Parted (M : Mesh) (keep : Bool) (s : Nat × Nat) : Prop :=
  (∃ n b, Closed M s n b ∧
    if keep then ∀ i < n, ∀ j < n, isoAt M inxt b i → isoAt M inxt b j → i = j
    else ∀ j ≤ n, M.ref (b j).1 = M.ref s.1 → ∀ i ≤ j, M.ref (b i).1 = M.ref s.1) ∨
  ∃ n b m c, Open M inxt s n b ∧ Open M iprv s (m + 1) c ∧
    if keep then (∀ j < n, ¬ isoAt M inxt b j) ∧ ∀ j, 1 ≤ j → j < m + 1 → ¬ isoAt M iprv c j
    else (∀ j ≤ n, M.ref (b j).1 = M.ref s.1) ∧ ∀ j, 1 ≤ j → j ≤ m + 1 → M.ref (c j).1 ≠ M.ref s.1

/-- The adjacency is symmetric. -/
def Sym (M : Mesh) : Prop :=
  ∀ k i, i < 3 → (M.adj k i).1 ≠ 0 → (M.adj k i).2 < 3 ∧ M.adj (M.adj k i).1 (M.adj k i).2 = (k, i)

theorem nxt_inj : ∀ i < 3, ∀ j < 3, inxt i = inxt j → i = j := by decide
theorem prv_nxt : ∀ i < 3, iprv (inxt i) = i := by decide
theorem nxt_lt : ∀ i < 3, inxt i < 3 := by decide

theorem ball_iff (hs : Sym M) (keep : Bool) (k i : Nat) (hi : i < 3) (hf : onFront M keep k i = true)
    (hb : HasBall M (k, inxt i)) :
    ∃ r, chkmaniball M keep k (inxt i) = some r ∧ (r = true ↔ Parted M keep (k, inxt i)) := by
  have hadj : (M.adj k i).1 ≠ 0 := by
    intro h; simp [onFront, h] at hf
  -- the last edge of a closed ball is the edge of the front
  have hlast : ∀ n b, Closed M (k, inxt i) n b → cross M inxt b n = (k, i) ∧ (b n).1 = (M.adj k i).1 := by
    rintro n b ⟨ht, h1, h2⟩
    have hidx : ∀ j ≤ n, (b j).2 < 3 := by
      intro j hj
      rcases Nat.eq_zero_or_pos j with h0 | h0
      · rw [h0, ht.first]; exact nxt_lt i hi
      · have := (ht.next (j - 1) (by omega)).2
        rw [show j - 1 + 1 = j by omega] at this
        rw [this]
        exact nxt_lt _ (ht.idx _ (by omega))
    have h3 : (cross M inxt b n).1 ≠ 0 := by
      rw [h1]; have := ht.pos 0 (Nat.zero_le _); rw [ht.first] at this; exact this
    obtain ⟨h4, h5⟩ := hs _ _ (nxt_lt _ (hidx n le_rfl)) h3
    have h6 : cross M inxt b n = (k, i) := Prod.ext h1 (nxt_inj _ h4 _ hi h2)
    refine ⟨h6, ?_⟩
    have h7 : M.adj (cross M inxt b n).1 (cross M inxt b n).2 = ((b n).1, inxt (b n).2) := h5
    rw [h6] at h7
    rw [h7]
  have hstart : ∀ m c, Open M iprv (k, inxt i) (m + 1) c → (c 1).1 = (M.adj k i).1 := by
    rintro m c ⟨hu, -⟩
    have := (hu.next 0 (by omega)).1
    rw [hu.first] at this
    rw [this]
    show (M.adj k (iprv (inxt i))).1 = _
    rw [prv_nxt i hi]
  cases keep with
  | false =>
    have hne : M.ref (M.adj k i).1 ≠ M.ref k := by
      simp only [onFront, if_neg hadj, Bool.false_eq_true, if_false, Bool.not_or, Bool.and_eq_true, Bool.not_eq_true',
        decide_eq_false_iff_not] at hf
      exact fun h => hf.1 h.symm
    have cl := fun n b (h : Closed M (k, inxt i) n b) => C77_closed h (by rw [(hlast n b h).2]; exact hne)
    have op := fun n b m c (h : Open M inxt (k, inxt i) n b) (h' : Open M iprv (k, inxt i) (m + 1) c) =>
      C77_open h h' (by rw [hstart m c h']; exact hne)
    have back : Parted M false (k, inxt i) → chkmaniball M false k (inxt i) = some true := by
      rintro (⟨n, b, h, h1⟩ | ⟨n, b, m, c, h, h', h1⟩)
      · obtain ⟨r, e, hr⟩ := cl n b h
        rw [e, hr.2 (by simpa using h1)]
      · obtain ⟨r, e, hr⟩ := op n b m c h h'
        rw [e, hr.2 (by simpa using h1)]
    rcases hb with ⟨n, b, h⟩ | ⟨n, b, m, c, h, h'⟩
    · obtain ⟨r, e, hr⟩ := cl n b h
      refine ⟨r, e, fun h1 => .inl ⟨n, b, h, by simpa using hr.1 h1⟩, fun h1 => ?_⟩
      have := back h1
      rw [show chkmaniball M false k (inxt i) = some r from e] at this
      exact Option.some.inj this
    · obtain ⟨r, e, hr⟩ := op n b m c h h'
      refine ⟨r, e, fun h1 => .inr ⟨n, b, m, c, h, h', by simpa using hr.1 h1⟩, fun h1 => ?_⟩
      have := back h1
      rw [show chkmaniball M false k (inxt i) = some r from e] at this
      exact Option.some.inj this
  | true =>
    have hiso : M.edg k i = M.iso := by
      simpa [onFront, if_neg hadj] using hf
    have cl := fun n b (h : Closed M (k, inxt i) n b) =>
      C77_closed_keep h (by unfold isoAt; rw [(hlast n b h).1]; exact hiso)
    have op := fun n b m c (h : Open M inxt (k, inxt i) n b) (h' : Open M iprv (k, inxt i) (m + 1) c) =>
      C77_open_keep h h'
    have back : Parted M true (k, inxt i) → chkmaniball M true k (inxt i) = some true := by
      rintro (⟨n, b, h, h1⟩ | ⟨n, b, m, c, h, h', h1⟩)
      · obtain ⟨r, e, hr⟩ := cl n b h
        rw [e, hr.2 (by simpa using h1)]
      · obtain ⟨r, e, hr⟩ := op n b m c h h'
        rw [e, hr.2 (by simpa using h1)]
    rcases hb with ⟨n, b, h⟩ | ⟨n, b, m, c, h, h'⟩
    · obtain ⟨r, e, hr⟩ := cl n b h
      refine ⟨r, e, fun h1 => .inl ⟨n, b, h, by simpa using hr.1 h1⟩, fun h1 => ?_⟩
      have := back h1
      rw [show chkmaniball M true k (inxt i) = some r from e] at this
      exact Option.some.inj this
    · obtain ⟨r, e, hr⟩ := op n b m c h h'
      refine ⟨r, e, fun h1 => .inr ⟨n, b, m, c, h, h', by simpa using hr.1 h1⟩, fun h1 => ?_⟩
      have := back h1
      rw [show chkmaniball M true k (inxt i) = some r from e] at this
      exact Option.some.inj this

theorem mem_corners {k i : Nat} : (k, i) ∈ corners M ↔ 1 ≤ k ∧ k ≤ M.nt ∧ i < 3 := by
  simp only [corners, List.mem_flatMap, List.mem_range'_1, List.mem_cons, Prod.mk.injEq, List.not_mem_nil, or_false]
  constructor
  · rintro ⟨k', ⟨h1, h2⟩, h⟩
    rcases h with ⟨rfl, rfl⟩ | ⟨rfl, rfl⟩ | ⟨rfl, rfl⟩ <;> omega
  · rintro ⟨h1, h2, h3⟩
    refine ⟨k, ⟨h1, by omega⟩, ?_⟩
    omega

/-- **C77** : on a mesh whose vertices of the front have a ball, the check ends, and it accepts exactly when the two
parts are separated at each vertex of the front. -/
theorem C77_mesh (hs : Sym M) (keep : Bool)
    (hb : ∀ k i, 1 ≤ k → k ≤ M.nt → i < 3 → M.ok k = true → onFront M keep k i = true → HasBall M (k, inxt i)) :
    ∃ r, chkmanimesh M keep (corners M) = some r ∧
      (r = true ↔ ∀ k i, 1 ≤ k → k ≤ M.nt → i < 3 → M.ok k = true → onFront M keep k i = true →
        Parted M keep (k, inxt i)) := by
  have main : ∀ l : List (Nat × Nat), (∀ q ∈ l, 1 ≤ q.1 ∧ q.1 ≤ M.nt ∧ q.2 < 3) →
      ∃ r, chkmanimesh M keep l = some r ∧
        (r = true ↔ ∀ q ∈ l, M.ok q.1 = true → onFront M keep q.1 q.2 = true → Parted M keep (q.1, inxt q.2)) := by
    intro l
    induction l with
    | nil => intro _; exact ⟨true, rfl, by simp⟩
    | cons q l ih =>
      obtain ⟨k, i⟩ := q
      intro hl
      obtain ⟨r, hr, hr'⟩ := ih fun q hq => hl q (List.mem_cons_of_mem _ hq)
      have h1 := hl (k, i) (List.mem_cons_self ..)
      unfold chkmanimesh
      by_cases hc : (M.ok k && onFront M keep k i) = true
      · rw [if_pos hc]
        rw [Bool.and_eq_true] at hc
        obtain ⟨t, ht, ht'⟩ := ball_iff hs keep k i h1.2.2 hc.2 (hb k i h1.1 h1.2.1 h1.2.2 hc.1 hc.2)
        rw [ht, Option.bind_some]
        cases t with
        | true =>
          refine ⟨r, by simpa using hr, ?_⟩
          rw [hr', List.forall_mem_cons]
          exact ⟨fun h => ⟨fun _ _ => ht'.1 rfl, h⟩, fun h => h.2⟩
        | false =>
          refine ⟨false, by simp, ?_⟩
          rw [List.forall_mem_cons]
          exact ⟨fun h => Bool.noConfusion h, fun h => ht'.2 (h.1 hc.1 hc.2)⟩
      · rw [if_neg hc]
        refine ⟨r, hr, ?_⟩
        rw [hr', List.forall_mem_cons]
        refine ⟨fun h => ⟨fun a b => absurd (by rw [Bool.and_eq_true]; exact ⟨a, b⟩) hc, h⟩, fun h => h.2⟩
  obtain ⟨r, hr, hr'⟩ := main (corners M) fun q hq => mem_corners.1 hq
  refine ⟨r, hr, hr'.trans ⟨fun h k i h1 h2 h3 h4 h5 => h (k, i) (mem_corners.2 ⟨h1, h2, h3⟩) h4 h5, fun h q hq h4 h5 => ?_⟩⟩
  obtain ⟨h1, h2, h3⟩ := mem_corners.1 hq
  exact h q.1 q.2 h1 h2 h3 h4 h5

/-! ### Examples -/

namespace Ex

/-- `m` triangles around a vertex, closed or not, with the references `r`; the edges in `e` (the edge between `k - 1` and `k`
is `k`) are edges of the level set. -/
def fan (m : Nat) (closed : Bool) (r : List Int) (e : List Nat) : Mesh where
  adj k i :=
    if k = 0 ∨ m < k then (0, 0)
    else if i = 1 then (if k = m then (if closed then (1, 2) else (0, 0)) else (k + 1, 2))
    else if i = 2 then (if k = 1 then (if closed then (m, 1) else (0, 0)) else (k - 1, 1))
    else (0, 0)
  ref k := r.getD (k - 1) 0
  edg k i := if i = 2 ∧ k ∈ e ∨ i = 1 ∧ (if k = m then 1 else k + 1) ∈ e then 10 else 0
  nt := m
  ok _ := true
  iso := 10

theorem closed_ball (r : List Int) (e : List Nat) :
    Closed (fan 4 true r e) (1, 0) 3 (fun j => (j + 1, 0)) := by
  refine ⟨⟨rfl, ?_, by simp, ?_, by simp, by simp [fan]⟩, rfl, rfl⟩
  · intro j hj; interval_cases j <;> exact ⟨rfl, rfl⟩
  · intro j hj; interval_cases j <;> exact Nat.lt_succ_self 2

/-- The hypotheses of `C77_closed` are met, with both verdicts. -/
example : chkmaniball (fan 4 true [2, 2, 3, 3] [1, 3]) false 1 0 = some true := by decide
example : chkmaniball (fan 4 true [2, 3, 2, 3] [1, 2, 3, 4]) false 1 0 = some false := by decide
example := C77_closed (closed_ball [2, 3, 2, 3] [1, 2, 3, 4]) (by decide)
example := C77_closed_keep (closed_ball [2, 2, 3, 3] [1, 3]) (by decide)
example : chkmaniball (fan 4 true [2, 2, 2, 2] [1, 2, 3]) true 1 0 = some false := by decide
example : chkmanimesh (fan 4 true [2, 2, 3, 3] [1, 3]) false (corners (fan 4 true [2, 2, 3, 3] [1, 3])) = some true := by
  decide
example : chkmanimesh (fan 4 true [2, 3, 2, 3] [1, 2, 3, 4]) false (corners (fan 4 true [2, 3, 2, 3] [1, 2, 3, 4])) =
    some false := by decide

theorem open_fwd (r : List Int) (e : List Nat) : Open (fan 3 false r e) inxt (2, 0) 1 (fun j => (j + 2, 0)) := by
  refine ⟨⟨rfl, ?_, by simp, ?_, by simp, by simp [fan]⟩, rfl⟩
  · intro j hj; interval_cases j <;> exact ⟨rfl, rfl⟩
  · intro j hj; interval_cases j <;> exact Nat.lt_succ_self 2

theorem open_bwd (r : List Int) (e : List Nat) : Open (fan 3 false r e) iprv (2, 0) (0 + 1) (fun j => (2 - j, 0)) := by
  refine ⟨⟨rfl, ?_, ?_, ?_, ?_, by simp [fan]⟩, rfl⟩
  · intro j hj; interval_cases j; exact ⟨rfl, rfl⟩
  · intro j hj; interval_cases j <;> decide
  · intro j hj; interval_cases j <;> exact Nat.lt_succ_of_lt (Nat.lt_succ_self 1)
  · intro i hi j hj; interval_cases i <;> interval_cases j <;> simp

/-- The hypotheses of `C77_open` are met. -/
example := C77_open (open_fwd [2, 3, 3] [2]) (open_bwd [2, 3, 3] [2]) (by decide)
example := C77_open_keep (open_fwd [2, 3, 3] [2]) (open_bwd [2, 3, 3] [2])

/-- Observed: three materials around a vertex of the boundary, one of the two interfaces being on the level set.  The
mesh is refused, and its mirror image is accepted. -/
theorem C77_mirror_observed :
    chkmanimesh (fan 3 false [2, 3, 4] [2]) false (corners (fan 3 false [2, 3, 4] [2])) = some false ∧
      chkmanimesh (fan 3 false [4, 3, 2] [3]) false (corners (fan 3 false [4, 3, 2] [3])) = some true := by decide

/-- Observed: with the references kept, an edge of the level set that ends inside the surface is accepted (the assertion
of the function does not hold). -/
theorem C77_dangling_observed : chkmaniball (fan 4 true [2, 2, 2, 2] [1]) true 1 0 = some true := by decide

end Ex

end Mmg.Mani
