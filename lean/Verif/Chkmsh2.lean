/-
  What the consistency checks of the 2D and surface codes accept (C70).
-/
import Verif.Chkmsh

namespace Mmg.Chk

/-! ### Specification -/

/-- Link of edge `i` of triangle `k`. -/
def link2 (A : Nat → Nat) (k i : Nat) : Nat := A (3 * (k - 1) + 1 + i)

/-- Used slots. -/
def Tri (nt : Nat) (V : Nat → List Nat) (k : Nat) : Prop :=
  1 ≤ k ∧ k ≤ nt ∧ 0 < (V k).getD 0 0

/-- Slots beyond the last triangle are unused. -/
def Tail2 (nt ntmax : Nat) (V : Nat → List Nat) : Prop :=
  nt ≤ ntmax ∧ ∀ k, k = 0 ∨ nt < k → (V k).getD 0 0 = 0

/-- Corner, required, or with the tag. -/
def OnLine (t b : Nat) : Prop := t &&& b ≠ 0 ∨ t &&& 32 ≠ 0 ∨ t &&& 4 ≠ 0

/-- Symmetric links between distinct triangles. -/
def Linked (A : Nat → Nat) (nt : Nat) (V : Nat → List Nat) : Prop :=
  ∀ k, Tri nt V k → ∀ i < 3, link2 A k i / 3 ≠ 0 →
    Tri nt V (link2 A k i / 3) ∧ link2 A k i / 3 ≠ k ∧
    link2 A (link2 A k i / 3) (link2 A k i % 3) = 3 * k + i

/-- Consistency of links and tags in 2D.  (`base`: the final checks.) -/
structure M2.Basic (m : M2) (base : Bool) : Prop where
  adj : Linked m.A m.nt m.V
  line : ∀ k, Tri m.nt m.V k → ∀ i < 3, ∀ b, b = 2 ∨ b = 1 → m.tag k i &&& b ≠ 0 →
    OnLine (m.ptag (m.v k ((i + 1) % 3))) b ∧ OnLine (m.ptag (m.v k ((i + 2) % 3))) b
  outer : base = true → ∀ k, Tri m.nt m.V k → ∀ i < 3,
    (m.tag k i &&& 2 ≠ 0 ↔ link2 m.A k i / 3 = 0)
  refs : m.opnbdy = false → ∀ k, Tri m.nt m.V k → ∀ i < 3, m.tag k i &&& 1 ≠ 0 →
    m.ref k ≠ m.ref (link2 m.A k i / 3)
  bdy : ∀ k, Tri m.nt m.V k → ∀ i < 3, (m.tag k i &&& 2 ≠ 0 ∨ m.tag k i &&& 1 ≠ 0) →
    m.tag k i &&& 16 ≠ 0 ∧ m.ptag (m.v k ((i + 1) % 3)) &&& 16 ≠ 0 ∧
    m.ptag (m.v k ((i + 2) % 3)) &&& 16 ≠ 0

/-! ### Lemmas -/

theorem nx_eq {i : Nat} (hi : i < 3) : nx i = (i + 1) % 3 := by
  rcases i with _ | _ | _ | i
  · rfl
  · rfl
  · rfl
  · omega

theorem pv_eq {i : Nat} (hi : i < 3) : pv i = (i + 2) % 3 := by
  rcases i with _ | _ | _ | i
  · rfl
  · rfl
  · rfl
  · omega

theorem edges2_ok {nt : Nat} {V : Nat → List Nat} {f : Nat → Nat → Res} :
    edges2 nt V f = .ok ↔ ∀ k, Tri nt V k → ∀ i < 3, f k i = .ok := by
  unfold edges2
  rw [loop_ok]
  constructor
  · intro h k ⟨h1, h2, h3⟩ i hi
    have := h (k - 1) (by omega)
    have e : k - 1 + 1 = k := by omega
    rw [e, if_pos (by simp only [eok, decide_eq_true_eq]; exact h3), loop_ok] at this
    exact this i hi
  · intro h k0 hk
    by_cases hl : eok (V (k0 + 1)) = true
    · rw [if_pos hl, loop_ok]
      simp only [eok, decide_eq_true_eq] at hl
      exact fun i hi => h (k0 + 1) ⟨by omega, by omega, hl⟩ i hi
    · rw [if_neg hl]

theorem eok_iff {nt ntmax : Nat} {V : Nat → List Nat} (ht : Tail2 nt ntmax V) {k : Nat} :
    eok (V k) = true ↔ Tri nt V k := by
  simp only [eok, decide_eq_true_eq, Tri]
  constructor
  · intro h1
    by_cases hk : k = 0 ∨ nt < k
    · have := ht.2 k hk; omega
    · exact ⟨by omega, by omega, h1⟩
  · exact fun h => h.2.2

theorem adj2_ok {m : M2} (ht : Tail2 m.nt m.ntmax m.V) {k i : Nat} (hi : i < 3) :
    adj2 m k i = .ok ↔ (link2 m.A k i / 3 ≠ 0 →
      Tri m.nt m.V (link2 m.A k i / 3) ∧ link2 m.A k i / 3 ≠ k ∧
      link2 m.A (link2 m.A k i / 3) (link2 m.A k i % 3) = 3 * k + i) := by
  have key : ∀ a b, m.A (3 * (a - 1) + 1 + b) = link2 m.A a b := fun _ _ => rfl
  unfold adj2
  simp only [key]
  set l := link2 m.A k i with hldef
  by_cases h0 : l / 3 = 0
  · simp [h0]
  rw [if_neg h0]
  by_cases h1 : l / 3 = k
  · rw [if_pos h1]
    simp only [reduceCtorEq, false_iff]
    exact fun h => (h h0).2.1 h1
  rw [if_neg h1]
  by_cases h2 : m.ntmax < l / 3
  · rw [if_pos h2]
    simp only [reduceCtorEq, false_iff]
    intro h
    have := (h h0).1.2.1
    have := ht.1
    omega
  rw [if_neg h2]
  by_cases h3 : eok (m.V (l / 3)) = true
  · have h3' := (eok_iff ht).mp h3
    simp only [h3, Bool.not_true, Bool.false_eq_true, if_false]
    by_cases h4 : link2 m.A (l / 3) (l % 3) / 3 ≠ k ∨ link2 m.A (l / 3) (l % 3) % 3 ≠ i
    · rw [if_pos h4]
      simp only [reduceCtorEq, false_iff]
      intro h
      have := (h h0).2.2
      omega
    · rw [if_neg h4]
      simp only [true_iff]
      exact fun _ => ⟨h3', h1, by omega⟩
  · simp only [h3, Bool.not_false, if_true, reduceCtorEq, false_iff]
    exact fun h => h3 ((eok_iff ht).mpr (h h0).1)

theorem ite_ok {b : Bool} {r : Res} :
    (if b = true then r else .ok) = .ok ↔ (b = true → r = .ok) := by
  cases b <;> simp

theorem onLine_iff {t b : Nat} : failIf (!has t b && !sin t) = .ok ↔ OnLine t b := by
  rw [failIf_ok]
  unfold OnLine sin
  have h1 : (has t CRN = true) ↔ t &&& 32 ≠ 0 := has_iff
  have h2 : (has t REQ = true) ↔ t &&& 4 ≠ 0 := has_iff
  have h3 : (has t b = true) ↔ t &&& b ≠ 0 := has_iff
  rw [← h1, ← h2, ← h3]
  cases has t b <;> cases has t CRN <;> cases has t REQ <;> simp

theorem vtag2_ok {m : M2} {k i : Nat} (hi : i < 3) :
    vtag2 m k i = .ok ↔ ∀ b, b = 2 ∨ b = 1 → m.tag k i &&& b ≠ 0 →
      OnLine (m.ptag (m.v k ((i + 1) % 3))) b ∧ OnLine (m.ptag (m.v k ((i + 2) % 3))) b := by
  unfold vtag2
  simp only [seq_ok, ite_ok, onLine_iff, nx_eq hi, pv_eq hi]
  have h1 : (has (m.tag k i) GEO = true) ↔ m.tag k i &&& 2 ≠ 0 := has_iff
  have h2 : (has (m.tag k i) REF = true) ↔ m.tag k i &&& 1 ≠ 0 := has_iff
  rw [h1, h2]
  constructor
  · rintro ⟨ha, hb⟩ b (rfl | rfl)
    · exact ha
    · exact hb
  · intro h
    exact ⟨h 2 (Or.inl rfl), h 1 (Or.inr rfl)⟩

theorem nhas {t b : Nat} : failIf (!has t b) = .ok ↔ t &&& b ≠ 0 := by
  rw [failIf_ok, Bool.not_eq_false', has_iff]

theorem rtag2_ok {m : M2} {base : Bool} {k i : Nat} (hin : link2 m.A k i / 3 ≤ m.ntmax) :
    rtag2 m base k i = .ok ↔
      (base = true → (m.tag k i &&& 2 ≠ 0 ↔ link2 m.A k i / 3 = 0)) ∧
      (m.opnbdy = false → m.tag k i &&& 1 ≠ 0 → m.ref k ≠ m.ref (link2 m.A k i / 3)) := by
  have key : ∀ a b, m.A (3 * (a - 1) + 1 + b) = link2 m.A a b := fun _ _ => rfl
  unfold rtag2
  simp only [key, seq_ok, ite_ok]
  rw [if_neg (Nat.not_lt.mpr hin)]
  have h1 : (has (m.tag k i) GEO = true) ↔ m.tag k i &&& 2 ≠ 0 := has_iff
  have h2 : (has (m.tag k i) REF = true) ↔ m.tag k i &&& 1 ≠ 0 := has_iff
  rw [← h1, ← h2, failIf_ok]
  simp only [Bool.not_eq_true', decide_eq_false_iff_not, ne_eq]
  refine and_congr ?_ Iff.rfl
  refine imp_congr_right fun _ => ?_
  by_cases hl : link2 m.A k i / 3 = 0
  · rw [if_pos hl, failIf_ok]
    simp [hl]
  · rw [if_neg hl, failIf_ok]
    simp [hl]

theorem btag2_ok {m : M2} {k i : Nat} (hi : i < 3) :
    btag2 m k i = .ok ↔ ((m.tag k i &&& 2 ≠ 0 ∨ m.tag k i &&& 1 ≠ 0) →
      m.tag k i &&& 16 ≠ 0 ∧ m.ptag (m.v k ((i + 1) % 3)) &&& 16 ≠ 0 ∧
      m.ptag (m.v k ((i + 2) % 3)) &&& 16 ≠ 0) := by
  unfold btag2
  rw [ite_ok]
  simp only [seq_ok, nhas, nx_eq hi, pv_eq hi, Bool.or_eq_true, and_assoc]
  have h1 : (has (m.tag k i) GEO = true) ↔ m.tag k i &&& 2 ≠ 0 := has_iff
  have h2 : (has (m.tag k i) REF = true) ↔ m.tag k i &&& 1 ≠ 0 := has_iff
  rw [h1, h2]
  rfl

/-! ### 2D -/

/-- Without the option `severe`, the 2D check answers 1 exactly when links and tags are
consistent. -/
theorem C70_2d_accept {m : M2} (ht : Tail2 m.nt m.ntmax m.V) {lmax : Nat} {base : Bool} :
    chk2 m lmax false base = .ok ↔ m.Basic base := by
  unfold chk2
  simp only [Bool.false_eq_true, if_false, seq_ok, edges2_ok]
  have hin : Linked m.A m.nt m.V → ∀ k, Tri m.nt m.V k → ∀ i < 3,
      link2 m.A k i / 3 ≤ m.ntmax := by
    intro ha k hk i hi
    by_cases h0 : link2 m.A k i / 3 = 0
    · omega
    · have := (ha k hk i hi h0).1.2.1
      have := ht.1
      omega
  constructor
  · rintro ⟨⟨⟨h1, h2⟩, h3⟩, h4⟩
    have ha : Linked m.A m.nt m.V := fun k hk i hi => (adj2_ok ht hi).mp (h1 k hk i hi)
    exact ⟨ha, fun k hk i hi => (vtag2_ok hi).mp (h2 k hk i hi),
      fun hb k hk i hi => ((rtag2_ok (hin ha k hk i hi)).mp (h3 k hk i hi)).1 hb,
      fun ho k hk i hi => ((rtag2_ok (hin ha k hk i hi)).mp (h3 k hk i hi)).2 ho,
      fun k hk i hi => (btag2_ok hi).mp (h4 k hk i hi)⟩
  · intro h
    exact ⟨⟨⟨fun k hk i hi => (adj2_ok ht hi).mpr (h.adj k hk i hi),
      fun k hk i hi => (vtag2_ok hi).mpr (h.line k hk i hi)⟩,
      fun k hk i hi => (rtag2_ok (hin h.adj k hk i hi)).mpr
        ⟨fun hb => h.outer hb k hk i hi, fun ho => h.refs ho k hk i hi⟩⟩,
      fun k hk i hi => (btag2_ok hi).mpr (h.bdy k hk i hi)⟩

theorem walk2_first {m : M2} {step : Nat → Nat} {f room iel i e : Nat} {q : List (Nat × Nat)}
    (h1 : iel ≠ 0) (h2 : iel ≠ f) (h3 : 0 < m.v iel 0)
    (h : walk2 m step f room iel i = some (q, e)) : (iel, i) ∈ q := by
  rw [walk2.eq_def] at h
  simp only at h
  rw [if_pos ⟨h1, h2, h3⟩] at h
  cases room with
  | zero => simp at h
  | succ r =>
    simp only at h
    split at h
    · cases h
    · simp only [Option.some.injEq, Prod.mk.injEq] at h
      rw [← h.1]
      exact List.mem_cons_self

/-- The first neighbour is in the ball. -/
theorem boulep2_first {m : M2} {lmax k i : Nat} {q : List (Nat × Nat)}
    (h : boulep2 m lmax k i = some q) (h1 : link2 m.A k (nx i) / 3 ≠ 0)
    (h2 : link2 m.A k (nx i) / 3 ≠ k) (h3 : 0 < m.v (link2 m.A k (nx i) / 3) 0) :
    (link2 m.A k (nx i) / 3, nx (link2 m.A k (nx i) % 3)) ∈ q := by
  have key : ∀ a b, m.A (3 * (a - 1) + 1 + b) = link2 m.A a b := fun _ _ => rfl
  unfold boulep2 at h
  simp only [key] at h
  split at h
  · cases h
  split at h
  · cases h
  next q1 e hw =>
  have hm := walk2_first h1 h2 h3 hw
  split at h
  · cases h
    exact List.mem_cons_of_mem _ hm
  · split at h
    · cases h
    · cases h
      exact List.mem_cons_of_mem _ (List.mem_append_left _ hm)

/-- With the option `severe` (used by the library), in a mesh that is accepted and whose balls fit
in the list, two linked edges have the same vertices, in opposite order, and the triangles have
used vertices. -/
theorem C70_2d_severe {m : M2} (ht : Tail2 m.nt m.ntmax m.V) {lmax : Nat} {base : Bool}
    (h : chk2 m lmax true base = .ok)
    (hfit : ∀ k, Tri m.nt m.V k → ∀ i < 3, boulep2 m lmax k i ≠ none) :
    m.Basic base ∧
    (∀ k, Tri m.nt m.V k → ∀ i < 3, m.pvok (m.v k i) = true) ∧
    ∀ k, Tri m.nt m.V k → ∀ i < 3, link2 m.A k i / 3 ≠ 0 →
      m.v (link2 m.A k i / 3) ((link2 m.A k i % 3 + 1) % 3) = m.v k ((i + 2) % 3) ∧
      m.v (link2 m.A k i / 3) ((link2 m.A k i % 3 + 2) % 3) = m.v k ((i + 1) % 3) := by
  have hb : chk2 m lmax false base = .ok := by
    unfold chk2 at h ⊢
    simp only [if_true, seq_ok] at h
    simp only [Bool.false_eq_true, if_false, seq_ok]
    exact h.1
  have hbas := (C70_2d_accept ht).mp hb
  have hv : ∀ k, Tri m.nt m.V k → ∀ i < 3, vert2 m lmax k i = .ok := by
    unfold chk2 at h
    simp only [if_true] at h
    rw [seq_ok, edges2_ok] at h
    exact h.2
  have hone : ∀ k, Tri m.nt m.V k → ∀ i < 3, link2 m.A k i / 3 ≠ 0 →
      m.v (link2 m.A k i / 3) ((link2 m.A k i % 3 + 1) % 3) = m.v k ((i + 2) % 3) := by
    intro k hk i hi h0
    obtain ⟨ht', hne, _⟩ := hbas.adj k hk i hi h0
    have hpi : pv i < 3 := by rw [pv_eq hi]; exact Nat.mod_lt _ (by decide)
    have hnp : nx (pv i) = i := by
      rw [nx_eq hpi, pv_eq hi]; omega
    have hvi := hv k hk (pv i) hpi
    unfold vert2 at hvi
    simp only at hvi
    split at hvi
    · cases hvi
    cases hq : boulep2 m lmax k (pv i) with
    | none => exact absurd hq (hfit k hk _ hpi)
    | some q =>
      rw [hq] at hvi
      simp only at hvi
      split at hvi
      · cases hvi
      next hany =>
      have hmem := boulep2_first hq (by rw [hnp]; exact h0) (by rw [hnp]; exact hne)
        (by rw [hnp]; exact ht'.2.2)
      rw [hnp] at hmem
      simp only [Bool.not_eq_true, List.any_eq_false, bne_iff_ne, ne_eq, not_not] at hany
      have := hany _ hmem
      simp only at this
      rw [nx_eq (Nat.mod_lt _ (by decide)), pv_eq hi] at this
      exact this
  refine ⟨hbas, ?_, ?_⟩
  · intro k hk i hi
    have hvi := hv k hk i hi
    unfold vert2 at hvi
    simp only at hvi
    split at hvi
    · cases hvi
    next hp => simpa using hp
  · intro k hk i hi h0
    refine ⟨hone k hk i hi h0, ?_⟩
    obtain ⟨ht', hne, hs⟩ := hbas.adj k hk i hi h0
    have hd : link2 m.A (link2 m.A k i / 3) (link2 m.A k i % 3) / 3 = k := by omega
    have hm : link2 m.A (link2 m.A k i / 3) (link2 m.A k i % 3) % 3 = i := by omega
    have := hone _ ht' (link2 m.A k i % 3) (Nat.mod_lt _ (by decide)) (by
      rw [hd]; have := hk.1; omega)
    rw [hd, hm] at this
    exact this.symm

/-! ### Surface -/

/-- Consistency of the links of a surface mesh: they are symmetric, the two sides carry the same
tag and reference, and regular edges are seen in opposite directions. -/
def MS.Consistent (m : MS) : Prop :=
  ∀ k, Tri m.nt m.V k → ∀ i < 3, link2 m.A k i ≠ 0 →
    Tri m.nt m.V (link2 m.A k i / 3) ∧ link2 m.A k i / 3 ≠ k ∧
    link2 m.A (link2 m.A k i / 3) (link2 m.A k i % 3) = 3 * k + i ∧
    m.tag (link2 m.A k i / 3) (link2 m.A k i % 3) = m.tag k i ∧
    m.edg (link2 m.A k i / 3) (link2 m.A k i % 3) = m.edg k i ∧
    (m.tag k i &&& 32 = 0 → m.tag k i &&& 4 = 0 → m.tag k i &&& 8 = 0 →
      (m.V (link2 m.A k i / 3)).getD ((link2 m.A k i % 3 + 2) % 3) 0 =
        (m.V k).getD ((i + 1) % 3) 0 ∧
      (m.V (link2 m.A k i / 3)).getD ((link2 m.A k i % 3 + 1) % 3) 0 =
        (m.V k).getD ((i + 2) % 3) 0)

theorem sinS_iff {t : Nat} :
    sinS t = false ↔ (t &&& 32 = 0 ∧ t &&& 4 = 0 ∧ t &&& 8 = 0) := by
  have h1 : (has t CRN = true) ↔ t &&& 32 ≠ 0 := has_iff
  have h2 : (has t REQ = true) ↔ t &&& 4 ≠ 0 := has_iff
  have h3 : (has t NOM = true) ↔ t &&& 8 ≠ 0 := has_iff
  unfold sinS
  rw [← not_iff_not.trans (iff_of_eq rfl), Bool.not_eq_false]
  simp only [Bool.or_eq_true, h1, h2, h3]
  tauto

theorem C70_surface {m : MS} (ht : Tail2 m.nt m.ntmax m.V) : chkS m = .ok ↔ m.Consistent := by
  unfold chkS MS.Consistent
  rw [edges2_ok]
  refine forall_congr' fun k => imp_congr_right fun hk => forall_congr' fun i =>
    imp_congr_right fun hi => ?_
  have key : ∀ a b, m.A (3 * (a - 1) + 1 + b) = link2 m.A a b := fun _ _ => rfl
  unfold adjS
  simp only [key]
  set l := link2 m.A k i with hldef
  have hl3 : l % 3 < 3 := Nat.mod_lt _ (by decide)
  by_cases h0 : l = 0
  · simp [h0]
  rw [if_neg h0]
  simp only [ne_eq, h0, not_false_eq_true, true_imp_iff]
  by_cases hz : l / 3 = 0 ∧ has (m.tag k i) GEO = false
  · rw [if_pos hz]
    simp only [reduceCtorEq, false_iff]
    rintro ⟨h, _⟩
    have := h.1
    omega
  rw [if_neg hz]
  by_cases h1 : l / 3 = k
  · rw [if_pos h1]
    simp [h1]
  rw [if_neg h1]
  by_cases h2 : m.ntmax < l / 3
  · rw [if_pos h2]
    simp only [reduceCtorEq, false_iff]
    rintro ⟨h, _⟩
    have := h.2.1
    have := ht.1
    omega
  rw [if_neg h2]
  by_cases h3 : eok (m.V (l / 3)) = true
  · have h3' := (eok_iff ht).mp h3
    simp only [h3, Bool.not_true, Bool.false_eq_true, if_false]
    by_cases ht' : m.tag k i ≠ m.tag (l / 3) (l % 3) ∨ m.edg k i ≠ m.edg (l / 3) (l % 3)
    · simp only [ne_eq] at ht'
      rw [if_pos ht']
      simp only [reduceCtorEq, false_iff]
      rintro ⟨_, _, _, h5, h6, _⟩
      rcases ht' with h | h
      · exact h h5.symm
      · exact h h6.symm
    · simp only [ne_eq] at ht'
      rw [if_neg ht']
      simp only [not_or, not_not] at ht'
      by_cases h4 : ¬ link2 m.A (l / 3) (l % 3) / 3 = k ∨ ¬ link2 m.A (l / 3) (l % 3) % 3 = i
      · rw [if_pos h4]
        simp only [reduceCtorEq, false_iff]
        rintro ⟨_, _, h, _⟩
        omega
      · rw [if_neg h4]
        have e : link2 m.A (l / 3) (l % 3) = 3 * k + i := by omega
        by_cases hs : sinS (m.tag k i) = true
        · simp only [hs, Bool.not_true, Bool.false_eq_true, if_false, true_iff]
          refine ⟨h3', h1, e, ht'.1.symm, ht'.2.symm, fun a b c => ?_⟩
          rw [sinS_iff.mpr ⟨a, b, c⟩] at hs
          cases hs
        · have hs' : sinS (m.tag k i) = false := by simpa using hs
          simp only [hs', Bool.not_false, if_true, failIf_ok, decide_eq_false_iff_not, not_or,
            not_not, nx_eq hi, pv_eq hi, nx_eq hl3, pv_eq hl3]
          constructor
          · exact fun h => ⟨h3', h1, e, ht'.1.symm, ht'.2.symm, fun _ _ _ => h⟩
          · rintro ⟨_, _, _, _, _, h⟩
            obtain ⟨a, b, c⟩ := sinS_iff.mp hs'
            exact h a b c
  · simp only [h3, Bool.not_false, if_true, reduceCtorEq, false_iff]
    exact fun h => h3 ((eok_iff ht).mpr h.1)

/-! ### Examples and observations -/

namespace Ex

/-- Triangles `vs`, links `as`; every edge has the tag `tg`, every vertex the tag `pt`. -/
def m2 (vs : List (List Nat)) (as : List Nat) (tg : Nat → Nat → Nat) (pt : Nat) (r : Int) : M2 where
  nt := vs.length
  ntmax := vs.length
  V k := if k = 0 then [] else vs.getD (k - 1) []
  ref k := if k = 0 then 0 else r
  tag := tg
  ptag _ := pt
  pvok _ := true
  A n := as.getD (n - 1) 0
  opnbdy := false

theorem tail2 (vs : List (List Nat)) (as : List Nat) (tg : Nat → Nat → Nat) (pt : Nat) (r : Int) :
    Tail2 (m2 vs as tg pt r).nt (m2 vs as tg pt r).ntmax (m2 vs as tg pt r).V := by
  refine ⟨Nat.le_refl _, ?_⟩
  rintro k (rfl | h)
  · rfl
  · have h' : vs.length < k := h
    have h0 : k ≠ 0 := by omega
    have : vs.length ≤ k - 1 := by omega
    simp [m2, h0, List.getD, List.getElem?_eq_none this]

/-- Boundary edges of two triangles with the common edge 0. -/
def tg2 (_ i : Nat) : Nat := if i = 0 then 0 else 18

/-- Two triangles with the common edge 2 3, tagged boundary: accepted in all modes. -/
example : chk2 (m2 [[1, 2, 3], [4, 3, 2]] [6, 0, 0, 3, 0, 0] tg2 18 1) 1024 true true = .ok ∧
    (∀ i < 3, boulep2 (m2 [[1, 2, 3], [4, 3, 2]] [6, 0, 0, 3, 0, 0] tg2 18 1) 1024 1 i ≠ none) ∧
    (∀ i < 3, boulep2 (m2 [[1, 2, 3], [4, 3, 2]] [6, 0, 0, 3, 0, 0] tg2 18 1) 1024 2 i ≠ none) := by
  decide +kernel

/-- Without `severe`, edges with different vertices may be linked. -/
theorem C70_2d_vertices_observed :
    let m := m2 [[1, 2, 3], [4, 5, 6]] [6, 0, 0, 3, 0, 0] tg2 18 1
    chk2 m 1024 false true = .ok ∧ chk2 m 1024 true true = .ko ∧
    m.v (link2 m.A 1 0 / 3) 1 ≠ m.v 1 2 := by decide +kernel

/-- With `severe`, two triangles that share one vertex only (a valid mesh, with all its boundary
edges tagged) are rejected. -/
theorem C70_2d_pinch_observed :
    let m := m2 [[1, 2, 3], [1, 4, 5]] [0, 0, 0, 0, 0, 0] (fun _ _ => 18) 18 1
    chk2 m 1024 false true = .ok ∧ chk2 m 1024 true true = .ko := by decide +kernel

/-- A triangle whose three boundary edges were given as edges of the mesh (tag `REF`): accepted
with the reference 1, rejected with the reference 0, that is compared with the one of the slot 0,
which is no triangle. -/
theorem C70_2d_ref0_observed :
    chk2 (m2 [[1, 2, 3]] [0, 0, 0] (fun _ _ => 19) 19 1) 1024 true true = .ok ∧
    chk2 (m2 [[1, 2, 3]] [0, 0, 0] (fun _ _ => 19) 19 0) 1024 true true = .ko := by decide +kernel

/-- The surface check accepts an open boundary without the ridge tag, although it has a message
"missing edge tag" for this case: edges without neighbour are skipped before. -/
theorem C70_surface_open_observed :
    let m : MS := { nt := 1, ntmax := 1, V := fun k => if k = 1 then [1, 2, 3] else [],
                    tag := fun _ _ => 0, edg := fun _ _ => 0, A := fun _ => 0 }
    chkS m = .ok ∧ m.tag 1 0 &&& 2 = 0 ∧ link2 m.A 1 0 = 0 := by decide

/-- A regular closed pair of triangles: the consistent surface mesh of the hypotheses. -/
def ms : MS where
  nt := 2
  ntmax := 2
  V k := if k = 1 then [1, 2, 3] else if k = 2 then [4, 3, 2] else []
  tag _ _ := 0
  edg _ _ := 0
  A n := if n = 1 then 6 else if n = 4 then 3 else 0

example : ms.Consistent := by
  refine (C70_surface ⟨by decide, ?_⟩).mp (by decide)
  rintro k (rfl | h)
  · rfl
  · have h' : 2 < k := h
    have h1 : k ≠ 1 := by omega
    have h2 : k ≠ 2 := by omega
    simp [ms, h1, h2]

end Ex

end Mmg.Chk
