/-
  Specification and lemmas on the listing of a component (`RmcModel`).
-/
import Verif.RmcModel
import Mathlib.Logic.Relation
import Mathlib.Data.List.Perm.Subperm
import Mathlib.Data.List.Range
import Mathlib.Tactic.IntervalCases

namespace Mmg.Rmc
open Mmg.Split3 Mmg.Ls3

/-! ### Specification -/

/-- An element of the mesh. -/
def Mesh.Elt (M : Mesh) (k : Nat) : Prop := 1 ≤ k ∧ k ≤ M.n ∧ M.ok k = true

/-- `p` is a vertex of the element. -/
def Mesh.Has (M : Mesh) (k p : Nat) : Prop := ∃ i < M.d, M.v k i = p

/-- `p` is a vertex of the face `j` of the element. -/
def Mesh.OnFace (M : Mesh) (k j p : Nat) : Prop := ∃ i < M.d, i ≠ j ∧ M.v k i = p

/-- The adjacency is that of a mesh of triangles or tetrahedra: neighbours are elements, they are neighbours of
each other through the same face, and the elements around a vertex are connected through faces having
this vertex. -/
structure Mesh.Wf (M : Mesh) : Prop where
  dim : M.d = 3 ∨ M.d = 4
  elt : ∀ k j, M.Elt k → j < M.d → M.adj k j ≠ 0 → M.Elt (M.adj k j)
  sym : ∀ k j, M.Elt k → j < M.d → M.adj k j ≠ 0 →
    ∃ j' < M.d, M.adj (M.adj k j) j' = k ∧ ∀ p, M.OnFace k j p ↔ M.OnFace (M.adj k j) j' p
  ball : ∀ k l p, M.Elt k → M.Elt l → M.Has k p → M.Has l p →
    Relation.ReflTransGen (fun a b => b ≠ 0 ∧ ∃ j < M.d, M.adj a j = b ∧ M.OnFace a j p) k l

variable {K : Type} [Field K] [LinearOrder K]

/-- Two elements share a face having a vertex where the value is in the part. -/
def Link (M : Mesh) (inside : K → Bool) (sol : Nat → K) (a b : Nat) : Prop :=
  b ≠ 0 ∧ ∃ j < M.d, M.adj a j = b ∧ ∃ p, M.OnFace a j p ∧ inside (sol p) = true

/-- Elements of the same component. -/
def Comp (M : Mesh) (inside : K → Bool) (sol : Nat → K) : Nat → Nat → Prop :=
  Relation.ReflTransGen (Link M inside sol)

/-- `l` is the list of the elements of the component of `k`. -/
def IsComp (M : Mesh) (inside : K → Bool) (sol : Nat → K) (k : Nat) (l : List Nat) : Prop :=
  l.Nodup ∧ ∀ e, e ∈ l ↔ Comp M inside sol k e

/-- The component has a base face with a vertex in the part. -/
def Attached (M : Mesh) (P : Par K) (sol : Nat → K) (l : List Nat) : Prop :=
  ∃ k ∈ l, ∃ j < M.d, P.base k j = true ∧ ∃ p, M.OnFace k j p ∧ P.inside (sol p) = true

/-- The component has to be removed. -/
def Removed (M : Mesh) (P : Par K) (sol : Nat → K) (l : List Nat) : Prop :=
  (l.map (P.frac sol)).sum < P.small ∨ (P.attach = true ∧ ¬ Attached M P sol l)

/-- The part of an element depends on the values at its vertices only. -/
def Local (M : Mesh) (frac : (Nat → K) → Nat → K) : Prop :=
  ∀ k sol sol', (∀ p, M.Has k p → sol p = sol' p) → frac sol k = frac sol' k

/-! ### Lemmas -/

variable {M : Mesh} {P : Par K}

theorem mem_faces (h : M.d = 3 ∨ M.d = 4) {i : Nat} (hi : i < M.d) (j : Nat) :
    j ∈ M.faces i ↔ j < M.d ∧ j ≠ i := by
  unfold Mesh.faces
  rcases h with h | h
  · rw [if_pos h]
    rw [h] at hi ⊢
    simp only [List.mem_cons, List.not_mem_nil, or_false]
    omega
  · rw [if_neg (by omega)]
    rw [h] at hi ⊢
    interval_cases i <;> simp <;> omega

theorem mem_nbrs (h : M.Wf) (sol : Nat → K) (k b : Nat) :
    (b ∈ nbrs M P sol k ∧ b ≠ 0) ↔ Link M P.inside sol k b := by
  unfold nbrs Link
  simp only [List.mem_flatMap, List.mem_range]
  constructor
  · rintro ⟨⟨i, hi, hb⟩, h0⟩
    by_cases hs : P.inside (sol (M.v k i)) = true
    · rw [if_pos hs, List.mem_map] at hb
      obtain ⟨j, hj, rfl⟩ := hb
      obtain ⟨hj, hne⟩ := (mem_faces h.dim hi j).1 hj
      exact ⟨h0, j, hj, rfl, _, ⟨i, hi, fun e => hne e.symm, rfl⟩, hs⟩
    · rw [if_neg hs] at hb
      simp at hb
  · rintro ⟨h0, j, hj, rfl, p, ⟨i, hi, hne, rfl⟩, hs⟩
    refine ⟨⟨i, hi, ?_⟩, h0⟩
    rw [if_pos hs, List.mem_map]
    exact ⟨j, (mem_faces h.dim hi j).2 ⟨hj, fun e => hne e.symm⟩, rfl⟩

theorem Link.elt (h : M.Wf) {inside : K → Bool} {sol : Nat → K} {a b : Nat} (ha : M.Elt a)
    (hl : Link M inside sol a b) : M.Elt b := by
  obtain ⟨h0, j, hj, rfl, -⟩ := hl
  exact h.elt a j ha hj h0

theorem Link.symm (h : M.Wf) {inside : K → Bool} {sol : Nat → K} {a b : Nat} (ha : M.Elt a)
    (hl : Link M inside sol a b) : Link M inside sol b a := by
  obtain ⟨h0, j, hj, rfl, p, hp, hs⟩ := hl
  obtain ⟨j', hj', e, hf⟩ := h.sym a j ha hj h0
  exact ⟨by have := ha.1; omega, j', hj', e, p, (hf p).1 hp, hs⟩

theorem Comp.elt (h : M.Wf) {inside : K → Bool} {sol : Nat → K} {a b : Nat} (ha : M.Elt a)
    (hl : Comp M inside sol a b) : M.Elt b := by
  induction hl with
  | refl => exact ha
  | tail _ hl ih => exact hl.elt h ih

theorem Comp.symm (h : M.Wf) {inside : K → Bool} {sol : Nat → K} {a b : Nat} (ha : M.Elt a)
    (hl : Comp M inside sol a b) : Comp M inside sol b a := by
  induction hl with
  | refl => exact .refl
  | tail h1 hl ih => exact .head (hl.symm h (Comp.elt h ha h1)) ih

/-- Two elements having a vertex of the part are in the same component. -/
theorem comp_of_vertex (h : M.Wf) {inside : K → Bool} {sol : Nat → K} {a b p : Nat} (ha : M.Elt a)
    (hb : M.Elt b) (hap : M.Has a p) (hbp : M.Has b p) (hs : inside (sol p) = true) :
    Comp M inside sol a b := by
  have hb' := h.ball a b p ha hb hap hbp
  clear hbp hb
  induction hb' with
  | refl => exact .refl
  | tail _ hl ih =>
    obtain ⟨h0, j, hj, e, hp⟩ := hl
    exact .tail ih ⟨h0, j, hj, e, p, hp, hs⟩

theorem Mesh.OnFace.has {k j p : Nat} (h : M.OnFace k j p) : M.Has k p := by
  obtain ⟨i, hi, -, e⟩ := h
  exact ⟨i, hi, e⟩

/-- The component does not change if the values of its vertices do not. -/
theorem comp_congr {inside : K → Bool} {sol sol' : Nat → K} {k : Nat}
    (he : ∀ e, Comp M inside sol k e → ∀ p, M.Has e p → inside (sol p) = inside (sol' p)) (e : Nat) :
    Comp M inside sol k e ↔ Comp M inside sol' k e := by
  constructor
  · intro hc
    induction hc with
    | refl => exact .refl
    | tail h1 hl ih =>
      refine .tail ih ?_
      obtain ⟨h0, j, hj, ea, p, hp, hs⟩ := hl
      exact ⟨h0, j, hj, ea, p, hp, by rw [← he _ h1 p hp.has]; exact hs⟩
  · intro hc
    induction hc with
    | refl => exact .refl
    | tail h1 hl ih =>
      refine .tail ih ?_
      obtain ⟨h0, j, hj, ea, p, hp, hs⟩ := hl
      exact ⟨h0, j, hj, ea, p, hp, by rw [he _ ih p hp.has]; exact hs⟩

/-! ### The pile -/

/-- The pile has different elements, not marked before, and the marks are those of before and those of the pile. -/
structure Inv (M : Mesh) (F : Nat → Bool) (s : St) : Prop where
  nodup : s.pile.Nodup
  elt : ∀ e ∈ s.pile, M.Elt e
  new : ∀ e ∈ s.pile, F e = false
  flag : ∀ e, s.flag e = true ↔ F e = true ∨ e ∈ s.pile

theorem Inv.length {F : Nat → Bool} {s : St} (h : Inv M F s) : s.pile.length ≤ M.n := by
  have : s.pile.Subperm (List.range' 1 M.n) := by
    refine h.nodup.subperm fun e he => ?_
    have := h.elt e he
    rw [List.mem_range'_1]
    have := this.1; have := (h.elt e he).2.1; omega
  simpa using this.length_le

theorem push_spec {F : Nat → Bool} {s : St} (h : Inv M F s) {l : Nat} (hl : l ≠ 0 → M.Elt l) :
    ∃ s', push M s l = some s' ∧ Inv M F s' ∧ (∃ t, s'.pile = s.pile ++ t ∧ ∀ e ∈ t, e = l ∧ e ≠ 0) ∧
      (l ≠ 0 → F l = true ∨ l ∈ s'.pile) := by
  unfold push
  by_cases h0 : l = 0
  · rw [if_pos h0]
    exact ⟨s, rfl, h, ⟨[], by simp, by simp⟩, fun h => absurd h0 h⟩
  rw [if_neg h0]
  have he := hl h0
  rw [if_neg (by rintro ⟨-, hk⟩; rw [he.2.2] at hk; cases hk)]
  by_cases hf : s.flag l = true
  · rw [if_pos hf]
    exact ⟨s, rfl, h, ⟨[], by simp, by simp⟩, fun _ => (h.flag l).1 hf⟩
  rw [if_neg hf]
  have hf' : ¬ (F l = true ∨ l ∈ s.pile) := fun hh => hf ((h.flag l).2 hh)
  have hi : Inv M F ⟨upd s.flag l true, s.pile ++ [l]⟩ := by
    refine ⟨?_, ?_, ?_, ?_⟩
    · refine List.Nodup.append h.nodup (by simp) ?_
      intro e he1 he2
      simp only [List.mem_singleton] at he2
      subst he2
      exact hf' (.inr he1)
    · intro e he'
      rcases List.mem_append.1 he' with h1 | h1
      · exact h.elt e h1
      · simp only [List.mem_singleton] at h1
        exact h1 ▸ he
    · intro e he'
      rcases List.mem_append.1 he' with h1 | h1
      · exact h.new e h1
      · simp only [List.mem_singleton] at h1
        subst h1
        exact Bool.eq_false_iff.2 fun hh => hf' (.inl hh)
    · intro e
      by_cases hel : e = l
      · subst hel; simp [upd]
      · simp only [upd, if_neg hel, h.flag e, List.mem_append, List.mem_singleton]
        simp [hel]
  have hlen := hi.length
  simp only [List.length_append, List.length_singleton] at hlen
  rw [if_neg (by omega)]
  exact ⟨_, rfl, hi, ⟨[l], rfl, by simpa using h0⟩, fun _ => .inr (by simp)⟩

theorem pushAll_spec {F : Nat → Bool} (ls : List Nat) : ∀ {s : St}, Inv M F s →
    (∀ l ∈ ls, l ≠ 0 → M.Elt l) →
    ∃ s', pushAll M ls s = some s' ∧ Inv M F s' ∧
      (∃ t, s'.pile = s.pile ++ t ∧ ∀ e ∈ t, e ∈ ls ∧ e ≠ 0) ∧
      ∀ l ∈ ls, l ≠ 0 → F l = true ∨ l ∈ s'.pile := by
  induction ls with
  | nil => intro s h _; exact ⟨s, rfl, h, ⟨[], by simp, by simp⟩, by simp⟩
  | cons l ls ih =>
    intro s h hl
    obtain ⟨s1, e1, i1, ⟨t1, p1, m1⟩, c1⟩ := push_spec h (hl l (by simp))
    obtain ⟨s2, e2, i2, ⟨t2, p2, m2⟩, c2⟩ := ih i1 fun a ha => hl a (by simp [ha])
    refine ⟨s2, by rw [pushAll, e1]; exact e2, i2, ⟨t1 ++ t2, by rw [p2, p1, List.append_assoc], ?_⟩, ?_⟩
    · intro e he
      rcases List.mem_append.1 he with h1 | h1
      · obtain ⟨ha, hb⟩ := m1 e h1; exact ⟨by simp [ha], hb⟩
      · obtain ⟨ha, hb⟩ := m2 e h1; exact ⟨by simp [ha], hb⟩
    · intro a ha h0
      rcases List.mem_cons.1 ha with rfl | ha
      · rcases c1 h0 with hc | hc
        · exact .inl hc
        · exact .inr (by rw [p2]; simp [hc])
      · exact c2 a ha h0

theorem grow_spec (h : M.Wf) {F : Nat → Bool} {sol : Nat → K} {k : Nat} :
    ∀ (fuel cur : Nat) (s : St), Inv M F s → cur < s.pile.length → M.n < fuel + cur →
    (∀ e ∈ s.pile, Comp M P.inside sol k e) →
    (∀ c < cur, ∀ b, Link M P.inside sol (s.pile.getD c 0) b → F b = true ∨ b ∈ s.pile) →
    ∃ s', grow M P sol fuel cur s = some s' ∧ Inv M F s' ∧ s.pile <+: s'.pile ∧
      (∀ e ∈ s'.pile, Comp M P.inside sol k e) ∧
      ∀ e ∈ s'.pile, ∀ b, Link M P.inside sol e b → F b = true ∨ b ∈ s'.pile := by
  intro fuel
  induction fuel with
  | zero =>
    intro cur s hi hc hf
    have := hi.length
    omega
  | succ fuel ih =>
    intro cur s hi hc hf hr hcl
    have hm : s.pile.getD cur 0 ∈ s.pile := by
      rw [List.getD_eq_getElem _ _ hc]; exact List.getElem_mem hc
    obtain ⟨s1, e1, i1, ⟨t, p1, m1⟩, c1⟩ := pushAll_spec (nbrs M P sol (s.pile.getD cur 0)) hi
      fun l hl h0 => ((mem_nbrs h sol _ l).1 ⟨hl, h0⟩).elt h (hi.elt _ hm)
    rw [grow, e1, Option.bind_some]
    have hr1 : ∀ e ∈ s1.pile, Comp M P.inside sol k e := by
      intro e he
      rw [p1] at he
      rcases List.mem_append.1 he with h1 | h1
      · exact hr e h1
      · exact .tail (hr _ hm) ((mem_nbrs h sol _ e).1 (m1 e h1))
    have hcl1 : ∀ c < cur + 1, ∀ b, Link M P.inside sol (s1.pile.getD c 0) b → F b = true ∨ b ∈ s1.pile := by
      intro c hc1 b hl
      have hg : s1.pile.getD c 0 = s.pile.getD c 0 := by
        rw [p1, List.getD_append _ _ _ _ (by omega)]
      rw [hg] at hl
      by_cases hce : c < cur
      · rcases hcl c hce b hl with h1 | h1
        · exact .inl h1
        · exact .inr (by rw [p1]; simp [h1])
      · obtain rfl : c = cur := by omega
        obtain ⟨hb, h0⟩ := (mem_nbrs h sol _ b).2 hl
        exact c1 b hb h0
    by_cases hlt : cur + 1 < s1.pile.length
    · rw [if_pos hlt]
      obtain ⟨s2, e2, i2, p2, r2, cl2⟩ := ih (cur + 1) s1 i1 hlt (by omega) hr1 hcl1
      exact ⟨s2, e2, i2, (by rw [p1]; exact List.prefix_append _ _ : s.pile <+: s1.pile).trans p2, r2, cl2⟩
    · rw [if_neg hlt]
      refine ⟨s1, rfl, i1, by rw [p1]; exact List.prefix_append _ _, hr1, ?_⟩
      intro e he b hl
      obtain ⟨c, hcc, rfl⟩ := List.getElem_of_mem he
      refine hcl1 c (by omega) b ?_
      rw [List.getD_eq_getElem _ _ hcc]; exact hl

/-- The pile is the component of its first element. -/
theorem grow_comp (h : M.Wf) {F : Nat → Bool} {sol : Nat → K} {k : Nat} (hk : M.Elt k)
    (hF : ∀ a b, M.Elt a → F a = true → Link M P.inside sol a b → F b = true) (hkF : F k = false) :
    ∃ s, grow M P sol (M.n + 1) 0 ⟨upd F k true, [k]⟩ = some s ∧ IsComp M P.inside sol k s.pile ∧
      (∀ e, s.flag e = true ↔ F e = true ∨ e ∈ s.pile) ∧ ∀ e ∈ s.pile, F e = false := by
  have i0 : Inv M F ⟨upd F k true, [k]⟩ := by
    refine ⟨by simp, by simpa using hk, by simpa using hkF, ?_⟩
    intro e
    by_cases he : e = k
    · simp [upd, he]
    · simp [upd, he]
  obtain ⟨s, e, i, hp, hr, hc⟩ := grow_spec (P := P) (sol := sol) (k := k) h (M.n + 1) 0 ⟨upd F k true, [k]⟩ i0
    (by simp) (by omega) (by intro e he; rw [List.mem_singleton.1 he]; exact .refl) (by simp)
  refine ⟨s, e, ⟨i.nodup, fun x => ⟨hr x, ?_⟩⟩, i.flag, i.new⟩
  intro hx
  induction hx with
  | refl => exact hp.subset (by simp)
  | tail h1 hl ih =>
    rcases hc _ ih _ hl with hF' | hm
    · have hE := i.elt _ ih
      have := hF _ _ (hl.elt h hE) hF' (hl.symm h hE)
      rw [i.new _ ih] at this
      cases this
    · exact hm

end Mmg.Rmc
