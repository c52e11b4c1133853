/-
  Invariants of the growth and of the correction of a cavity.
-/
import Verif.CavityModel
import Mathlib.Data.List.Perm.Basic

namespace Mmg.Cavity

open Mmg.Split3 Mmg.Swap23 Mmg.Shell Mmg.Delone

section
variable {m : M} {used : Nat → Prop} {sphere : Nat → Bool} {bad : Nat → Nat → Bool}
  {cap lonmax base : Nat} {sh : List Nat}

/-! ### Growth -/

structure GInv (m : M) (used : Nat → Prop) (sphere : Nat → Bool) (base : Nat) (sh : List Nat)
    (g : G) : Prop where
  nd : g.l.Nodup
  sub : ∀ k ∈ g.l, used k
  flag : ∀ k, used k → (g.flag k = base ↔ k ∈ g.l)
  pre : ∃ ext, g.l = sh ++ ext ∧ (∀ k ∈ ext, sphere k = true) ∧ g.isreq = ext.any m.req
  ins : ∀ k ∈ g.l, ∀ f < 4, link m.A k f ≠ 0 → link m.A k f / 4 ∈ g.l →
    (k ∈ sh ∧ link m.A k f / 4 ∈ sh) ∨ m.bdy k f = false
  ref : ∀ k ∈ g.l, ∃ k0 ∈ sh, m.tref k = m.tref k0

theorem Blocked.mono {l l' : List Nat} (h : ∀ k ∈ l, k ∈ l') {x : Nat}
    (hb : Blocked m sphere l x) : Blocked m sphere l' x := by
  rcases hb with hb | hb | hb | hb | ⟨j, h1, h2, h3, h4, h5⟩
  · exact .inl hb
  · exact .inr (.inl (h _ hb))
  · exact .inr (.inr (.inl hb))
  · exact .inr (.inr (.inr (.inl hb)))
  · exact .inr (.inr (.inr (.inr ⟨j, h1, h2, h3, h _ h4, h5⟩)))

theorem lost_false {flag : Nat → Nat} {adj voy : Nat} (h : lost m base flag adj voy = false) :
    ∀ j < 4, j ≠ voy → link m.A adj j ≠ 0 → flag (link m.A adj j / 4) = base →
      m.bdy (link m.A adj j / 4) (link m.A adj j % 4) = false := by
  intro j hj h1 h2 h3
  unfold lost at h
  rw [List.any_eq_false] at h
  have := h j (List.mem_range.2 hj)
  simpa [h1, h2, h3] using this

theorem lost_true {flag : Nat → Nat} {adj voy : Nat} (h : lost m base flag adj voy = true) :
    ∃ j < 4, j ≠ voy ∧ link m.A adj j ≠ 0 ∧ flag (link m.A adj j / 4) = base ∧
      m.bdy (link m.A adj j / 4) (link m.A adj j % 4) = true := by
  unfold lost at h
  rw [List.any_eq_true] at h
  obtain ⟨j, hj, h⟩ := h
  simp only [Bool.and_eq_true, decide_eq_true_eq] at h
  exact ⟨j, List.mem_range.1 hj, h.1.1.1, h.1.1.2, h.1.2, h.2⟩

theorem growFace_spec (hm : Mesh m.A m.V used) (hF : FacesOK m used) {g : G}
    (I : GInv m used sphere base sh g) {jel i : Nat} (hj : jel ∈ g.l) (hi : i < 4) :
    (cap ≤ g.l.length ∧ growFace m sphere cap base (link m.A jel i) g = none) ∨
    ∃ g', growFace m sphere cap base (link m.A jel i) g = some g' ∧
      GInv m used sphere base sh g' ∧ g.l <+: g'.l ∧ g'.l.length ≤ g.l.length + 1 ∧
      Blocked m sphere g'.l (link m.A jel i) := by
  have hju := I.sub jel hj
  unfold growFace
  by_cases h0 : link m.A jel i = 0
  · rw [if_pos h0]
    exact .inr ⟨g, rfl, I, List.prefix_rfl, by omega, .inl h0⟩
  obtain ⟨hu, hne, hsym, -⟩ := hm.adj.ok jel hju i hi h0
  rw [if_neg h0]
  by_cases h1 : g.flag (link m.A jel i / 4) = base
  · rw [if_pos h1]
    exact .inr ⟨g, rfl, I, List.prefix_rfl, by omega, .inr (.inl ((I.flag _ hu).1 h1))⟩
  rw [if_neg h1]
  by_cases h2 : m.bdy (link m.A jel i / 4) (link m.A jel i % 4) = true
  · rw [if_pos h2]
    exact .inr ⟨g, rfl, I, List.prefix_rfl, by omega, .inr (.inr (.inl h2))⟩
  rw [if_neg h2]
  by_cases h3 : sphere (link m.A jel i / 4) = false
  · rw [if_pos (by simp [h3])]
    exact .inr ⟨g, rfl, I, List.prefix_rfl, by omega, .inr (.inr (.inr (.inl h3)))⟩
  rw [if_neg (by simpa using h3)]
  have hv4 : link m.A jel i % 4 < 4 := Nat.mod_lt _ (by decide)
  by_cases h4 : lost m base g.flag (link m.A jel i / 4) (link m.A jel i % 4) = true
  · rw [if_pos h4]
    obtain ⟨j, e1, e2, e3, e4, e5⟩ := lost_true h4
    have hu' := (hm.adj.ok _ hu j e1 e3).1
    exact .inr ⟨g, rfl, I, List.prefix_rfl, by omega,
      .inr (.inr (.inr (.inr ⟨j, e1, e2, e3, (I.flag _ hu').1 e4, e5⟩)))⟩
  rw [if_neg h4]
  by_cases h5 : cap ≤ g.l.length
  · rw [if_pos h5]; exact .inl ⟨h5, rfl⟩
  rw [if_neg h5]
  refine .inr ⟨_, rfl, ?_, List.prefix_append _ _, by simp, .inr (.inl (by simp))⟩
  rw [Bool.not_eq_true] at h2 h4
  have hlf := lost_false h4
  have hnl : link m.A jel i / 4 ∉ g.l := fun h => h1 ((I.flag _ hu).2 h)
  have h2j : m.bdy jel i = false := by rw [← hF.two jel hju i hi h0]; exact h2
  have hsph : sphere (link m.A jel i / 4) = true := by simpa using h3
  have htr : m.tref (link m.A jel i / 4) = m.tref jel := by
    by_contra hc
    have := hF.diff jel hju i hi h0 (fun h => hc h.symm)
    rw [h2j] at this
    cases this
  generalize link m.A jel i / 4 = adj at *
  generalize link m.A jel i % 4 = voy at *
  have hself : ∀ f < 4, link m.A adj f ≠ 0 → link m.A adj f / 4 ≠ adj := fun f hf h =>
    (hm.adj.ok adj hu f hf h).2.1
  refine ⟨?_, ?_, ?_, ?_, ?_, ?_⟩
  · rw [List.nodup_append]
    exact ⟨I.nd, by simp, fun a ha b hb => by
      rw [List.mem_singleton] at hb; subst hb; exact fun h => hnl (h ▸ ha)⟩
  · intro k hk
    rcases List.mem_append.1 hk with hk | hk
    · exact I.sub k hk
    · rw [List.mem_singleton] at hk; rw [hk]; exact hu
  · intro k hk
    simp only [upd, List.mem_append, List.mem_singleton]
    by_cases hka : k = adj
    · simp [hka]
    · simp only [hka, if_false, or_false]; exact I.flag k hk
  · obtain ⟨ext, e1, e2, e3⟩ := I.pre
    refine ⟨ext ++ [adj], by rw [e1, List.append_assoc], ?_, ?_⟩
    · intro k hk
      rcases List.mem_append.1 hk with hk | hk
      · exact e2 k hk
      · rw [List.mem_singleton] at hk; rw [hk]; exact hsph
    · rw [e3, List.any_append]; simp
  · intro k hk f hf hk0 hk1
    simp only [List.mem_append, List.mem_singleton] at hk hk1
    rcases hk with hk | rfl
    · rcases hk1 with hk1 | hk1
      · exact I.ins k hk f hf hk0 hk1
      · right
        have hs := (hm.adj.ok k (I.sub k hk) f hf hk0).2.2.1
        have ht := hF.two k (I.sub k hk) f hf hk0
        rw [hk1] at hs ht
        by_cases hv : link m.A k f % 4 = voy
        · rw [← ht, hv]; exact h2
        · have hp := hm.adj.pos k (I.sub k hk)
          have := hlf (link m.A k f % 4) (Nat.mod_lt _ (by decide)) hv (by rw [hs]; omega)
            (by rw [hs, show (4 * k + f) / 4 = k by omega]; exact (I.flag k (I.sub k hk)).2 hk)
          rw [hs, show (4 * k + f) / 4 = k by omega, show (4 * k + f) % 4 = f by omega] at this
          exact this
    · rcases hk1 with hk1 | hk1
      · right
        by_cases hv : f = voy
        · rw [hv]; exact h2
        · have hu' := (hm.adj.ok k hu f hf hk0).1
          rw [← hF.two k hu f hf hk0]
          exact hlf f hf hv hk0 ((I.flag _ hu').2 hk1)
      · exact absurd hk1 (hself f hf hk0)
  · intro k hk
    rcases List.mem_append.1 hk with hk | hk
    · exact I.ref k hk
    · rw [List.mem_singleton] at hk
      subst hk
      obtain ⟨k0, g1, g2⟩ := I.ref jel hj
      exact ⟨k0, g1, htr.trans g2⟩

theorem growFaces_spec (hm : Mesh m.A m.V used) (hF : FacesOK m used) {jel : Nat} :
    ∀ (is : List Nat) (g : G), (∀ i ∈ is, i < 4) → GInv m used sphere base sh g → jel ∈ g.l →
    g.l.length + is.length ≤ cap →
    ∃ g', growFaces m sphere cap base jel is g = some g' ∧
      GInv m used sphere base sh g' ∧ g.l <+: g'.l ∧ g'.l.length ≤ g.l.length + is.length ∧
      ∀ i ∈ is, Blocked m sphere g'.l (link m.A jel i) := by
  intro is
  induction is with
  | nil => intro g _ I _ _; exact ⟨g, rfl, I, List.prefix_rfl, by simp, by simp⟩
  | cons i is ih =>
    intro g hi I hj hc
    rw [List.length_cons] at hc
    rcases growFace_spec (cap := cap) hm hF I hj (hi i (by simp)) with ⟨h, _⟩ | ⟨g1, e, I1, p1, n1, b1⟩
    · omega
    · obtain ⟨g2, e2, I2, p2, n2, b2⟩ := ih g1 (fun i' h' => hi i' (by simp [h'])) I1 (p1.subset hj)
        (by omega)
      refine ⟨g2, ?_, I2, p1.trans p2, by rw [List.length_cons]; omega, ?_⟩
      · unfold growFaces; rw [e]; exact e2
      · intro i' h'
        rcases List.mem_cons.1 h' with rfl | h'
        · exact b1.mono (fun k hk => p2.subset hk)
        · exact b2 i' h'

theorem growLoop_spec (hm : Mesh m.A m.V used) (hF : FacesOK m used) (hcap : lonmax < cap) :
    ∀ (fuel ipil : Nat) (g : G), GInv m used sphere base sh g → ipil < g.l.length →
    g.l.length + 4 ≤ cap → lonmax ≤ fuel + ipil → 1 ≤ fuel →
    (∀ n < ipil, ∀ i < 4, Blocked m sphere g.l (link m.A (g.l.getD n 0) i)) →
    (∃ g', growLoop m sphere cap lonmax base fuel ipil g = .big g' ∧ lonmax < g'.l.length + 3 ∧
      GInv m used sphere base sh g') ∨
    ∃ g', growLoop m sphere cap lonmax base fuel ipil g = .ok g' ∧ GInv m used sphere base sh g' ∧
      g'.l.length + 3 ≤ lonmax ∧
      ∀ k ∈ g'.l, ∀ i < 4, Blocked m sphere g'.l (link m.A k i) := by
  intro fuel
  induction fuel with
  | zero => intro ipil g _ _ _ _ h; omega
  | succ fuel ih =>
    intro ipil g I hip hl hfu _ hb
    have hget : g.l.getD ipil 0 ∈ g.l := by
      rw [List.getD_eq_getElem?_getD, List.getElem?_eq_getElem hip]; exact List.getElem_mem _
    obtain ⟨g1, e1, I1, p1, n1, b1⟩ := growFaces_spec (cap := cap) hm hF [0, 1, 2, 3] g
      (by simp) I hget (by simpa using hl)
    have hlen := p1.length_le
    have same : ∀ n < g.l.length, g1.l.getD n 0 = g.l.getD n 0 := by
      intro n hn
      obtain ⟨t, ht⟩ := p1
      rw [← ht, List.getD_eq_getElem?_getD, List.getD_eq_getElem?_getD, List.getElem?_append_left hn]
    have hb1 : ∀ n < ipil + 1, ∀ i < 4, Blocked m sphere g1.l (link m.A (g1.l.getD n 0) i) := by
      intro n hn i hi
      rw [same n (by omega)]
      rcases Nat.lt_succ_iff_lt_or_eq.1 hn with hn | rfl
      · exact (hb n hn i hi).mono fun k hk => p1.subset hk
      · exact b1 i (by simp; omega)
    unfold growLoop
    rw [e1]
    simp only
    by_cases h1 : lonmax < g1.l.length + 3
    · rw [if_pos h1]; exact .inl ⟨g1, rfl, h1, I1⟩
    rw [if_neg h1]
    by_cases h2 : ipil + 1 < g1.l.length
    · rw [if_pos h2]
      exact ih (ipil + 1) g1 I1 h2 (by omega) (by omega) (by omega) hb1
    · rw [if_neg h2]
      refine .inr ⟨g1, rfl, I1, by omega, fun k hk i hi => ?_⟩
      obtain ⟨n, hn, rfl⟩ := List.getElem_of_mem hk
      have := hb1 n (by omega) i hi
      rwa [List.getD_eq_getElem?_getD, List.getElem?_eq_getElem hn] at this

/-! ### Marks -/

theorem mark_spec {tref : Int} : ∀ (xs : List Nat) (flag : Nat → Nat),
    (mark m base tref xs flag).1 = true →
    (∀ k, (mark m base tref xs flag).2 k = if k ∈ xs.map (· / 6) then base else flag k) ∧
    (m.opnbdy = false → ∀ x ∈ xs, m.tref (x / 6) = tref) ∧
    (m.opnbdy = true → ∀ x ∈ xs, m.bdy (x / 6) (ifar (x % 6)).1 = false ∧
      m.bdy (x / 6) (ifar (x % 6)).2 = false) := by
  intro xs
  induction xs with
  | nil => intro flag _; simp [mark]
  | cons x xs ih =>
    intro flag h
    have fl : ∀ k, (if k ∈ xs.map (· / 6) then base else upd flag (x / 6) base k) =
        if k ∈ (x :: xs).map (· / 6) then base else flag k := by
      intro k
      simp only [List.map_cons, List.mem_cons, upd]
      by_cases h1 : k = x / 6 <;> by_cases h2 : k ∈ xs.map (· / 6) <;> simp [h1, h2]
    unfold mark at h ⊢
    simp only at h ⊢
    by_cases ho : m.opnbdy = true
    · rw [if_neg (by simp [ho])] at h ⊢
      by_cases hb : (m.bdy (x / 6) (ifar (x % 6)).1 || m.bdy (x / 6) (ifar (x % 6)).2) = true
      · rw [if_pos hb] at h; cases h
      · rw [if_neg hb] at h ⊢
        obtain ⟨g1, g2, g3⟩ := ih _ h
        simp only [Bool.or_eq_true, not_or, Bool.not_eq_true] at hb
        refine ⟨fun k => by rw [g1, fl], fun h => (by rw [ho] at h; cases h), fun h y hy => ?_⟩
        rcases List.mem_cons.1 hy with rfl | hy
        · exact hb
        · exact g3 h y hy
    · rw [Bool.not_eq_true] at ho
      rw [if_pos (by simp [ho])] at h ⊢
      by_cases hb : tref ≠ m.tref (x / 6)
      · rw [if_pos hb] at h; cases h
      · rw [if_neg hb] at h ⊢
        obtain ⟨g1, g2, g3⟩ := ih _ h
        rw [not_not] at hb
        refine ⟨fun k => by rw [g1, fl], fun h y hy => ?_, fun h => (by rw [ho] at h; cases h)⟩
        rcases List.mem_cons.1 hy with rfl | hy
        · exact hb.symm
        · exact g2 h y hy

/-! ### Correction -/

theorem fails_iff {flag : Nat → Nat} {l : List Nat} (hm : Mesh m.A m.V used)
    (hfl : ∀ k, used k → (flag k = base ↔ k ∈ l)) {k : Nat} (hk : k ∈ l) (hu : used k) :
    fails m bad base flag k = true ↔
      m.req k = true ∨ ∃ i, Outer m.A l k i ∧ bad k i = true := by
  unfold fails
  rw [Bool.or_eq_true, List.any_eq_true]
  have key : ∀ i < 4, (decide (link m.A k i / 4 ≠ 0) && decide (flag (link m.A k i / 4) = base)) = false
      ↔ link m.A k i = 0 ∨ link m.A k i / 4 ∉ l := by
    intro i hi
    by_cases h0 : link m.A k i = 0
    · simp [h0]
    · have hu' := (hm.adj.ok k hu i hi h0).1
      have hp := hm.adj.pos _ hu'
      have : link m.A k i / 4 ≠ 0 := by omega
      simp only [this, ne_eq, not_false_eq_true, decide_true, Bool.true_and, decide_eq_false_iff_not,
        h0, false_or]
      exact not_congr (hfl _ hu')
  constructor
  · rintro (⟨i, hi, h⟩ | h)
    · rw [Bool.and_eq_true, Bool.not_eq_true'] at h
      have hi := List.mem_range.1 hi
      exact .inr ⟨i, ⟨hk, hi, (key i hi).1 h.1⟩, h.2⟩
    · exact .inl h
  · rintro (h | ⟨i, ⟨_, hi, ho⟩, h⟩)
    · exact .inr h
    · refine .inl ⟨i, List.mem_range.2 hi, ?_⟩
      rw [Bool.and_eq_true, Bool.not_eq_true']
      exact ⟨(key i hi).2 ho, h⟩

theorem scan_spec {flag : Nat → Nat} {l : List Nat} : ∀ n,
    (scan m bad base flag l n = none ∧ ∀ j < n, fails m bad base flag (l.getD j 0) = false) ∨
    ∃ j < n, scan m bad base flag l n = some j ∧ fails m bad base flag (l.getD j 0) = true := by
  intro n
  induction n with
  | zero => exact .inl ⟨rfl, by simp⟩
  | succ n ih =>
    unfold scan
    by_cases h : fails m bad base flag (l.getD n 0) = true
    · rw [if_pos h]; exact .inr ⟨n, by omega, rfl, h⟩
    · rw [if_neg h]
      rcases ih with ⟨h1, h2⟩ | ⟨j, h1, h2, h3⟩
      · refine .inl ⟨h1, fun j hj => ?_⟩
        rcases Nat.lt_succ_iff_lt_or_eq.1 hj with hj | rfl
        · exact h2 j hj
        · simpa using h
      · exact .inr ⟨j, by omega, h2, h3⟩

/-- Removal by the last one. -/
theorem remove_perm {l : List Nat} {n : Nat} (hn : n < l.length) :
    ((l.set n (l.getD (l.length - 1) 0)).dropLast).Perm (l.eraseIdx n) := by
  obtain ⟨t, z, rfl⟩ : ∃ t z, l = t ++ [z] := by
    refine ⟨l.dropLast, l.getLast (by intro h; simp [h] at hn), ?_⟩
    rw [List.dropLast_append_getLast]
  have hz : (t ++ [z]).getD ((t ++ [z]).length - 1) 0 = z := by simp
  rw [hz]
  rw [List.length_append, List.length_singleton] at hn
  by_cases h : n < t.length
  · rw [List.set_append_left _ _ h, List.dropLast_concat, List.eraseIdx_append_of_lt_length h]
    exact (List.set_perm_cons_eraseIdx h z).trans (List.perm_append_singleton z _).symm
  · have : n = t.length := by omega
    subst this
    simp [List.set_append_right, List.eraseIdx_append_of_length_le]

theorem remove_take {l : List Nat} {n p : Nat} (hn : n < l.length) (hp : p ≤ n) :
    ((l.set n (l.getD (l.length - 1) 0)).dropLast).take p = l.take p := by
  rw [List.dropLast_eq_take, List.take_take, List.length_set, Nat.min_eq_left (by omega),
    List.take_set_of_le hp]

/-- State during the correction of the cavity `l0`. -/
structure CInv (m : M) (used : Nat → Prop) (base : Nat) (l0 : List Nat) (p : Nat) (l : List Nat)
    (flag : Nat → Nat) : Prop where
  nd : l.Nodup
  sub : ∀ k ∈ l, k ∈ l0
  flag : ∀ k, used k → (flag k = base ↔ k ∈ l)
  pre : l.take p = l0.take p
  len : p ≤ l.length

theorem correct_spec (hm : Mesh m.A m.V used) (hb : 1 ≤ base) {l0 : List Nat} {p : Nat}
    (hu : ∀ k ∈ l0, used k) : ∀ (fuel : Nat) (l : List Nat) (flag : Nat → Nat),
    CInv m used base l0 p l flag → l.length < fuel →
    (∃ l' flag', correct m bad base p fuel l flag = .zero flag' ∧ CInv m used base l0 p l' flag' ∧
      ∃ n ≤ p, n < l'.length ∧ (m.req (l'.getD n 0) = true ∨
        ∃ i, Outer m.A l' (l'.getD n 0) i ∧ bad (l'.getD n 0) i = true)) ∨
    ∃ l' flag', correct m bad base p fuel l flag = .ok l' flag' ∧ CInv m used base l0 p l' flag' ∧
      (∀ k ∈ l', m.req k = false) ∧ ∀ k i, Outer m.A l' k i → bad k i = false := by
  intro fuel
  induction fuel with
  | zero => intro l flag _ h; omega
  | succ fuel ih =>
    intro l flag I hf
    have mem : ∀ n < l.length, l.getD n 0 ∈ l := fun n hn => by
      rw [List.getD_eq_getElem?_getD, List.getElem?_eq_getElem hn]; exact List.getElem_mem _
    unfold correct
    rcases scan_spec (m := m) (bad := bad) (base := base) (flag := flag) (l := l) l.length with
      ⟨h1, h2⟩ | ⟨n, hn, h1, h2⟩
    · rw [h1]
      have hnot : ∀ k ∈ l, ¬ (m.req k = true ∨ ∃ i, Outer m.A l k i ∧ bad k i = true) := by
        intro k hk
        rw [← fails_iff hm I.flag hk (hu k (I.sub k hk))]
        obtain ⟨n, hn, rfl⟩ := List.getElem_of_mem hk
        have := h2 n hn
        rw [List.getD_eq_getElem?_getD, List.getElem?_eq_getElem hn] at this
        simpa using this
      refine .inr ⟨l, flag, rfl, I, fun k hk => ?_, fun k i ho => ?_⟩
      · have := hnot k hk
        rw [not_or] at this
        simpa using this.1
      · have := hnot k ho.1
        rw [not_or] at this
        cases hc : bad k i
        · rfl
        · exact absurd ⟨i, ho, hc⟩ this.2
    · rw [h1]
      simp only
      have hr := mem n hn
      have hur := hu _ (I.sub _ hr)
      by_cases hnp : n ≤ p
      · rw [if_pos hnp]
        exact .inl ⟨l, flag, rfl, I, n, hnp, hn, (fails_iff hm I.flag hr hur).1 h2⟩
      · rw [if_neg hnp]
        have hperm := remove_perm hn
        have hlen : ((l.set n (l.getD (l.length - 1) 0)).dropLast).length = l.length - 1 := by simp
        have hmem : ∀ k, k ∈ l.eraseIdx n ↔ k ∈ l ∧ k ≠ l.getD n 0 := by
          intro k
          have hg : l.getD n 0 = l[n] := by
            rw [List.getD_eq_getElem?_getD, List.getElem?_eq_getElem hn]; rfl
          rw [hg, ← I.nd.erase_getElem n hn, I.nd.mem_erase_iff]
          exact and_comm
        rw [if_pos (by rw [hlen]; have := I.len; omega)]
        refine ih _ _ ⟨?_, ?_, ?_, ?_, ?_⟩ (by rw [hlen]; omega)
        · exact hperm.nodup_iff.2 (I.nd.eraseIdx n)
        · intro k hk
          exact I.sub k ((hmem k).1 (hperm.mem_iff.1 hk)).1
        · intro k hk
          rw [hperm.mem_iff, hmem]
          unfold upd
          by_cases hkr : k = l.getD n 0
          · rw [if_pos hkr]; simp only [hkr, ne_eq, not_true_eq_false, and_false, iff_false]; omega
          · rw [if_neg hkr, I.flag k hk]; simp only [ne_eq, hkr, not_false_eq_true, and_true]
        · rw [remove_take hn (by omega)]; exact I.pre
        · rw [hlen]; omega

end

end Mmg.Cavity
