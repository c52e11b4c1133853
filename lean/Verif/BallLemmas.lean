/-
Helper lemmas of BallProps: chains of a partial injection.
-/
import Mathlib.Data.List.Chain
import Mathlib.Data.List.Nodup
import Mathlib.Logic.Relation
import Verif.BallModel
import Verif.Tri2Lemmas

namespace Mmg.Tri2

section chain
variable {α : Type} {f : α → Option α}

/-- Elements `a` steps apart: equality propagates backwards and forwards along a chain. -/
theorem chain_back (inj : ∀ a b c, f a = some c → f b = some c → a = b) {l : List α}
    (hc : l.IsChain (fun x y => f x = some y)) (d : Nat) : ∀ i (h1 : i + d < l.length),
    l[i] = l[i + d] → l[0]'(by omega) = l[d]'(by omega) := by
  intro i
  induction i with
  | zero => intro h1 h; simpa using h
  | succ i ih =>
    intro h1 h
    apply ih (by omega)
    rw [List.isChain_iff_getElem] at hc
    have a := hc i (by omega)
    have b := hc (i + d) (by omega)
    have e : i + 1 + d = i + d + 1 := by omega
    simp only [e] at h
    rw [h] at a
    exact inj _ _ _ a b

theorem chain_fwd {l : List α} (hc : l.IsChain (fun x y => f x = some y)) (d : Nat) :
    ∀ m i (h1 : i + d + m < l.length), l[i] = l[i + d] → l[i + m] = l[i + d + m] := by
  intro m
  induction m with
  | zero => intro i h1 h; simpa using h
  | succ m ih =>
    intro i h1 h
    have h2 := ih i (by omega) h
    rw [List.isChain_iff_getElem] at hc
    have a := hc (i + m) (by omega)
    have b := hc (i + d + m) (by omega)
    rw [h2, b] at a
    exact (Option.some.inj a).symm

/-- A chain that does not come back to its first element has no repetition. -/
theorem chain_nodup_head (inj : ∀ a b c, f a = some c → f b = some c → a = b) {c : α} {l : List α}
    (hc : (c :: l).IsChain (fun x y => f x = some y)) (hn : c ∉ l) : (c :: l).Nodup := by
  rw [List.nodup_iff_getElem?_ne_getElem?]
  intro i j hij hj
  rw [List.getElem?_eq_getElem hj, List.getElem?_eq_getElem (by omega)]
  intro e
  have e := Option.some.inj e
  obtain ⟨d, rfl⟩ : ∃ d, j = i + d := ⟨j - i, by omega⟩
  have := chain_back inj hc d i hj e
  apply hn
  obtain ⟨d, rfl⟩ : ∃ d', d = d' + 1 := ⟨d - 1, by omega⟩
  simp only [List.getElem_cons_zero, List.getElem_cons_succ] at this
  rw [this]
  exact List.getElem_mem _

/-- A chain whose last element has no successor has no repetition. -/
theorem chain_nodup_last {l : List α}
    (hc : l.IsChain (fun x y => f x = some y)) (hl : ∀ x, l.getLast? = some x → f x = none) : l.Nodup := by
  rw [List.nodup_iff_getElem?_ne_getElem?]
  intro i j hij hj
  rw [List.getElem?_eq_getElem hj, List.getElem?_eq_getElem (by omega)]
  intro e
  have e := Option.some.inj e
  obtain ⟨d, rfl⟩ : ∃ d, j = i + d := ⟨j - i, by omega⟩
  have h1 := chain_fwd hc d (l.length - 1 - (i + d)) i (by omega) e
  have h2 := hl (l[l.length - 1]) (by rw [List.getLast?_eq_getElem?, List.getElem?_eq_getElem])
  rw [List.isChain_iff_getElem] at hc
  have h3 := hc (i + (l.length - 1 - (i + d))) (by omega)
  rw [h1] at h3
  have e2 : i + d + (l.length - 1 - (i + d)) = l.length - 1 := by omega
  simp only [e2] at h3
  rw [h2] at h3
  cases h3

/-- Membership is closed under successor and predecessor, given what happens at the two ends. -/
theorem chain_closed {g : α → Option α} (hfg : ∀ a b, f a = some b ↔ g b = some a) {l : List α} (hne : l ≠ [])
    (hc : l.IsChain (fun x y => f x = some y))
    (hend : (f (l.getLast hne) = none ∧ g (l.head hne) = none) ∨ f (l.getLast hne) = some (l.head hne)) :
    ∀ x y, f x = some y → (x ∈ l ↔ y ∈ l) := by
  have hc' := hc
  rw [List.isChain_iff_getElem] at hc
  have h0 : 0 < l.length := List.length_pos_iff.2 hne
  have hlast : l.getLast hne = l[l.length - 1] := List.getLast_eq_getElem _
  have hhead : l.head hne = l[0] := List.head_eq_getElem _
  rw [hlast, hhead] at hend
  intro x y hxy
  constructor
  · intro hx
    obtain ⟨i, hi, rfl⟩ := List.getElem_of_mem hx
    by_cases h : i + 1 < l.length
    · have := hc i h
      rw [this] at hxy
      cases hxy
      exact List.getElem_mem _
    · have e : i = l.length - 1 := by omega
      subst e
      rcases hend with h | h
      · rw [h.1] at hxy; cases hxy
      · rw [h] at hxy; cases hxy; exact List.getElem_mem _
  · intro hy
    obtain ⟨i, hi, rfl⟩ := List.getElem_of_mem hy
    have hg := (hfg _ _).1 hxy
    cases i with
    | zero =>
      rcases hend with h | h
      · rw [h.2] at hg; cases hg
      · rw [(hfg _ _).1 h] at hg; cases hg; exact List.getElem_mem _
    | succ i =>
      have := (hfg _ _).1 (hc i hi)
      rw [this] at hg; cases hg; exact List.getElem_mem _

end chain

/-! ### The two rotations -/

theorem rot_spec {M : Mesh} (h : Valid M) {c c' : HE} (hk : M.live c.1) (e : M.rot c = some c') :
    M.live c'.1 ∧ M.at c' = M.at c ∧ M.rotb c' = some c ∧ M.adj (c.1, c.2 + 1) = some (c'.1, c'.2 + 2) := by
  simp only [Mesh.rot, Option.map_eq_some_iff] at e
  obtain ⟨⟨x, y⟩, e, rfl⟩ := e
  obtain ⟨h1, h2, h3, h4, h5⟩ := h.lnk hk _ _ _ e
  obtain ⟨f1, f2, f3', f4, f5, f6, f7, f8⟩ := f3 y
  obtain ⟨g1, g2, g3, g4, g5, g6, g7, g8⟩ := f3 c.2
  refine ⟨h1, ?_, ?_, ?_⟩
  · simpa [Mesh.at, g5] using h4
  · simp [Mesh.rotb, f5, h3, g5]
  · simpa [f5] using e

theorem rotb_spec {M : Mesh} (h : Valid M) {c c' : HE} (hk : M.live c.1) (e : M.rotb c = some c') :
    M.live c'.1 ∧ M.at c' = M.at c ∧ M.rot c' = some c ∧ M.adj (c.1, c.2 + 2) = some (c'.1, c'.2 + 1) := by
  simp only [Mesh.rotb, Option.map_eq_some_iff] at e
  obtain ⟨⟨x, y⟩, e, rfl⟩ := e
  obtain ⟨h1, h2, h3, h4, h5⟩ := h.lnk hk _ _ _ e
  obtain ⟨f1, f2, f3', f4, f5, f6, f7, f8⟩ := f3 y
  obtain ⟨g1, g2, g3, g4, g5, g6, g7, g8⟩ := f3 c.2
  refine ⟨h1, ?_, ?_, ?_⟩
  · simpa [Mesh.at, g6] using h5
  · simp [Mesh.rot, f6, h3, g6]
  · simpa [f6] using e

/-- Rotation restricted to corners of valid triangles. -/
def rotL (M : Mesh) [DecidablePred M.live] (c : HE) : Option HE := if M.live c.1 then M.rot c else none
def rotbL (M : Mesh) [DecidablePred M.live] (c : HE) : Option HE := if M.live c.1 then M.rotb c else none

theorem rotL_iff {M : Mesh} [DecidablePred M.live] (h : Valid M) (a b : HE) :
    rotL M a = some b ↔ rotbL M b = some a := by
  constructor
  · intro e
    unfold rotL at e
    split at e
    · rename_i ha
      obtain ⟨h1, h2, h3, h4⟩ := rot_spec h ha e
      simp [rotbL, h1, h3]
    · cases e
  · intro e
    unfold rotbL at e
    split at e
    · rename_i ha
      obtain ⟨h1, h2, h3, h4⟩ := rotb_spec h ha e
      simp [rotL, h1, h3]
    · cases e

theorem rotL_inj {M : Mesh} [DecidablePred M.live] (h : Valid M) (a b c : HE) (e1 : rotL M a = some c)
    (e2 : rotL M b = some c) : a = b := by
  rw [rotL_iff h] at e1 e2
  rw [e1] at e2
  exact Option.some.inj e2

/-- Two corners of one triangle with the same vertex are equal. -/
theorem corner_eq {M : Mesh} (h : Valid M) {c c' : HE} (hk : M.live c.1) (e : c'.1 = c.1) (ea : M.at c' = M.at c) :
    c' = c := by
  apply Prod.ext e
  by_contra hne
  have := h.distinct c.1 hk c'.2 c.2 hne
  simp only [Mesh.at, e] at ea
  exact this ea

/-! ### Loops -/

theorem fwd_spec {M : Mesh} [DecidablePred M.live] (h : Valid M) (start : Nat) (n : Nat) (c : HE) (hk : M.live c.1)
    (l : List HE) (b : Bool) (e : fwd M start n c = some (l, b)) :
    (∃ t, l = c :: t ∧ ∀ x ∈ t, x.1 ≠ start) ∧ l.IsChain (fun x y => rotL M x = some y) ∧
    (∀ x ∈ l, M.live x.1 ∧ M.at x = M.at c) ∧
    (∀ x, l.getLast? = some x → if b then ∃ y, rotL M x = some y ∧ y.1 = start else rotL M x = none) ∧
    l.length ≤ n := by
  induction n generalizing c l b with
  | zero => simp [fwd] at e
  | succ n ih =>
    unfold fwd at e
    split at e
    · rename_i e1
      cases e
      simp [hk, rotL, e1]
    · rename_i c' e1
      obtain ⟨h1, h2, h3, h4⟩ := rot_spec h hk e1
      split at e
      · rename_i e2
        cases e
        refine ⟨⟨[], rfl, by simp⟩, by simp, by simp [hk], ?_, by simp⟩
        intro x hx
        cases hx
        simp only [if_true]
        exact ⟨c', by simp [hk, rotL, e1], e2⟩
      · rename_i e2
        simp only [Option.map_eq_some_iff] at e
        obtain ⟨⟨l', b'⟩, e, e3⟩ := e
        cases e3
        obtain ⟨⟨t, rfl, i1⟩, i2, i3, i4, i5⟩ := ih c' h1 l' _ e
        refine ⟨⟨_, rfl, ?_⟩, ?_, ?_, ?_, ?_⟩
        · intro x hx
          rcases List.mem_cons.1 hx with rfl | hx
          · exact e2
          · exact i1 x hx
        · exact List.IsChain.cons_cons (by simp [rotL, hk, e1]) i2
        · intro x hx
          rcases List.mem_cons.1 hx with rfl | hx
          · exact ⟨hk, rfl⟩
          · rw [← h2]; exact i3 x hx
        · intro x hx
          exact i4 x (by simpa using hx)
        · simp only [List.length_cons] at i5 ⊢; omega

theorem fwd_none {M : Mesh} [DecidablePred M.live] (h : Valid M) (start : Nat) (n : Nat) (c : HE) (hk : M.live c.1)
    (e : fwd M start n c = none) :
    ∃ t, (∀ x ∈ t, x.1 ≠ start) ∧ (c :: t).IsChain (fun x y => rotL M x = some y) ∧ t.length = n ∧
      ∀ x ∈ t, M.live x.1 ∧ M.at x = M.at c ∨ n = 0 := by
  induction n generalizing c with
  | zero => exact ⟨[], by simp⟩
  | succ n ih =>
    unfold fwd at e
    split at e
    · cases e
    · rename_i c' e1
      obtain ⟨h1, h2, h3, h4⟩ := rot_spec h hk e1
      split at e
      · cases e
      · rename_i e2
        simp only [Option.map_eq_none_iff] at e
        obtain ⟨t, i1, i2, i3, i4⟩ := ih c' h1 e
        refine ⟨c' :: t, ?_, ?_, by simp [i3], ?_⟩
        · intro x hx
          rcases List.mem_cons.1 hx with rfl | hx
          · exact e2
          · exact i1 x hx
        · exact List.IsChain.cons_cons (by simp [rotL, hk, e1]) i2
        · intro x hx
          left
          rcases List.mem_cons.1 hx with rfl | hx
          · exact ⟨h1, h2⟩
          · rcases i4 x hx with hh | hh
            · rw [← h2]; exact hh
            · subst hh
              have : t = [] := List.length_eq_zero_iff.1 i3
              subst this; simp at hx

theorem bwd_spec {M : Mesh} [DecidablePred M.live] (h : Valid M) (n : Nat) (c : HE) (hk : M.live c.1)
    (l : List HE) (e : bwd M n c = some l) :
    (l.reverse ++ [c]).IsChain (fun x y => rotL M x = some y) ∧
    (∀ x ∈ l, M.live x.1 ∧ M.at x = M.at c) ∧
    (∀ x, (l.reverse ++ [c]).head? = some x → rotbL M x = none) ∧
    l.length ≤ n := by
  induction n generalizing c l with
  | zero =>
    unfold bwd at e
    split at e
    · rename_i e1
      cases e
      simp [rotbL, e1]
    · cases e
  | succ n ih =>
    unfold bwd at e
    split at e
    · rename_i e1
      cases e
      simp [rotbL, e1]
    · rename_i c' e1
      obtain ⟨h1, h2, h3, h4⟩ := rotb_spec h hk e1
      simp only [Option.map_eq_some_iff] at e
      obtain ⟨l', e, rfl⟩ := e
      obtain ⟨i2, i3, i4, i5⟩ := ih c' h1 l' e
      refine ⟨?_, ?_, ?_, ?_⟩
      · rw [List.reverse_cons]
        refine List.isChain_append.2 ⟨i2, by simp, ?_⟩
        intro x hx y hy
        simp at hx hy
        subst hx; subst hy
        simp [rotL, h1, h3]
      · intro x hx
        rcases List.mem_cons.1 hx with rfl | hx
        · exact ⟨h1, h2⟩
        · rw [← h2]; exact i3 x hx
      · intro x hx
        apply i4 x
        rw [← hx]
        simp
      · simp only [List.length_cons]; omega

theorem bwd_none {M : Mesh} [DecidablePred M.live] (h : Valid M) (n : Nat) (c : HE) (hk : M.live c.1)
    (e : bwd M n c = none) : ∃ l : List HE, (l.reverse ++ [c]).IsChain (fun x y => rotL M x = some y) ∧
    (∀ x ∈ l, M.live x.1 ∧ M.at x = M.at c) ∧ l.length = n + 1 := by
  induction n generalizing c with
  | zero =>
    unfold bwd at e
    split at e
    · cases e
    · rename_i c' e1
      obtain ⟨h1, h2, h3, h4⟩ := rotb_spec h hk e1
      exact ⟨[c'], by simp [rotL, h1, h3, h2]⟩
  | succ n ih =>
    unfold bwd at e
    split at e
    · cases e
    · rename_i c' e1
      obtain ⟨h1, h2, h3, h4⟩ := rotb_spec h hk e1
      simp only [Option.map_eq_none_iff] at e
      obtain ⟨l', i2, i3, i5⟩ := ih c' h1 e
      refine ⟨c' :: l', ?_, ?_, by simp [i5]⟩
      · rw [List.reverse_cons]
        refine List.isChain_append.2 ⟨i2, by simp, ?_⟩
        intro x hx y hy
        simp at hx hy
        subst hx; subst hy
        simp [rotL, h1, h3]
      · intro x hx
        rcases List.mem_cons.1 hx with rfl | hx
        · exact ⟨h1, h2⟩
        · rw [← h2]; exact i3 x hx

/-- A fan step is a rotation in one of the two directions. -/
theorem fan_iff {M : Mesh} [DecidablePred M.live] (h : Valid M) {c c' : HE} (hk : M.live c.1) :
    M.Fan c c' ↔ rotL M c = some c' ∨ rotL M c' = some c := by
  rw [rotL_iff h c' c]
  simp only [rotL, rotbL, hk, if_true]
  constructor
  · rintro ⟨ha, e, e', h1, h2, h3⟩
    obtain ⟨g1, g2, g3, g4, g5, g6, g7, g8⟩ := f3 c.2
    obtain ⟨k1, k2, k3, k4, k5, k6, k7, k8⟩ := f3 e'
    obtain ⟨l1, l2, l3, l4, l5⟩ := h.lnk hk _ _ _ h3
    have hd := h.distinct _ l1
    rcases g8 e with r | r | r
    · exact absurd r h1
    · left
      subst r
      rw [g5] at l4
      have : c'.2 = e' + 1 := by
        by_contra hne
        exact hd _ _ hne (by rw [l4]; exact ha)
      have : c' = (c'.1, e' + 1) := Prod.ext rfl this
      rw [this]
      simp [Mesh.rot, h3]
    · right
      subst r
      rw [g6] at l5
      have : c'.2 = e' + 2 := by
        by_contra hne
        exact hd _ _ hne (by rw [l5]; exact ha)
      have : c' = (c'.1, e' + 2) := Prod.ext rfl this
      rw [this]
      simp [Mesh.rotb, h3]
  · obtain ⟨g1, g2, g3, g4, g5, g6, g7, g8⟩ := f3 c.2
    obtain ⟨k1, k2, k3, k4, k5, k6, k7, k8⟩ := f3 c'.2
    rintro (e | e)
    · obtain ⟨h1, h2, h3, h4⟩ := rot_spec h hk e
      exact ⟨h2, _, _, g1, k2, h4⟩
    · obtain ⟨h1, h2, h3, h4⟩ := rotb_spec h hk e
      exact ⟨h2, _, _, g2, k1, h4⟩

/-- Along a chain of rotations all corners are in the fan of the first one. -/
theorem chain_reach {M : Mesh} [DecidablePred M.live] (h : Valid M) {c : HE} {l : List HE}
    (hl : ∀ x ∈ c :: l, M.live x.1)
    (hc : (c :: l).IsChain (fun x y => rotL M x = some y)) : ∀ x ∈ c :: l, Relation.ReflTransGen M.Fan c x := by
  induction l generalizing c with
  | nil => intro x hx; simp at hx; subst hx; exact .refl
  | cons d l ih =>
    rw [List.isChain_cons_cons] at hc
    intro x hx
    rcases List.mem_cons.1 hx with rfl | hx
    · exact .refl
    · have := ih (fun x hx => hl x (by simp at hx ⊢; tauto)) hc.2 x hx
      exact .head ((fan_iff h (hl c (by simp))).2 (.inl hc.1)) this

theorem fan_symm {M : Mesh} [DecidablePred M.live] (h : Valid M) {c c' : HE} (hk : M.live c.1)
    (hf : M.Fan c c') : M.live c'.1 ∧ M.Fan c' c := by
  have h1 : M.live c'.1 := by
    rcases (fan_iff h hk).1 hf with e | e
    · simp only [rotL, hk, if_true] at e; exact (rot_spec h hk e).1
    · unfold rotL at e
      split at e
      · assumption
      · cases e
  refine ⟨h1, (fan_iff h h1).2 ?_⟩
  rcases (fan_iff h hk).1 hf with e | e
  · exact .inr e
  · exact .inl e

theorem fan_live {M : Mesh} [DecidablePred M.live] (h : Valid M) {c c' : HE} (hk : M.live c.1)
    (hr : Relation.ReflTransGen M.Fan c c') : M.live c'.1 := by
  induction hr with
  | refl => exact hk
  | tail _ hf ih => exact (fan_symm h ih hf).1

theorem fan_reach_symm {M : Mesh} [DecidablePred M.live] (h : Valid M) {c c' : HE} (hk : M.live c.1)
    (hr : Relation.ReflTransGen M.Fan c c') : Relation.ReflTransGen M.Fan c' c := by
  induction hr with
  | refl => exact .refl
  | tail hr' hf ih => exact .head (fan_symm h (fan_live h hk hr') hf).2 ih

end Mmg.Tri2
