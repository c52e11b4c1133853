/-
  Replacement of some tetrahedra of a mesh by others: when the links of the new mesh are obtained
  from those of the old one face by face, the adjacency stays symmetric and conforming.
-/
import Verif.Split3Star

namespace Mmg.Split3

/-- Write a back link: `if ( a ) mesh->adja[4*(a/4-1)+1+a%4] = x`, e.g. mmg3d/swap_3d.c 804-805. -/
def back (A : Nat → Nat) (a x : Nat) : Nat → Nat :=
  if a ≠ 0 then setAt A (4 * (a / 4 - 1) + 1 + a % 4) x else A

theorem link_back {A : Nat → Nat} {a x k i : Nat} (ha : a ≠ 0 → 1 ≤ a / 4) (hk : 1 ≤ k)
    (hi : i < 4) :
    link (back A a x) k i = if a ≠ 0 ∧ k = a / 4 ∧ i = a % 4 then x else link A k i := by
  have hidx : 4 * (a / 4 - 1) + 1 + a % 4 = adjIdx (a / 4) (a % 4) := rfl
  unfold back
  by_cases h0 : a ≠ 0
  · rw [if_pos h0, hidx, link_set (ha h0) hk (Nat.mod_lt _ (by decide)) hi]
    simp only [h0, ne_eq, not_false_eq_true, true_and]
  · rw [if_neg h0, if_neg (fun h => h0 h.1)]

/-- `D` is the set of the removed tetrahedra, `N` the set of the new ones (numbers of removed ones
may be used again).  An outer face of a new tetrahedron comes from a face of a removed one
(`src`). -/
theorem reglue' {A A' : Nat → Nat} {V V' : Nat → List Nat} {used : Nat → Prop}
    (hA : AdjOK A V used) (D N : Nat → Prop) (outer : Nat → Nat → Prop)
    (src : Nat → Nat → Nat × Nat)
    (hD : ∀ k, D k → used k) (hN : ∀ k, N k → 1 ≤ k ∧ (used k → D k))
    (hout : ∀ k i, N k → i < 4 → outer k i → D (src k i).1 ∧ (src k i).2 < 4 ∧
      link A' k i = link A (src k i).1 (src k i).2 ∧
      faceTri 0 (V' k) i = faceTri 0 (V (src k i).1) (src k i).2 ∧
      (link A' k i ≠ 0 → ¬ D (link A' k i / 4) ∧
        link A' (link A' k i / 4) (link A' k i % 4) = 4 * k + i))
    (hin : ∀ k i, N k → i < 4 → ¬ outer k i → link A' k i ≠ 0 → N (link A' k i / 4) ∧ link A' k i / 4 ≠ k ∧
      link A' (link A' k i / 4) (link A' k i % 4) = 4 * k + i ∧
      faceTri 0 (V' (link A' k i / 4)) (link A' k i % 4) = faceTri 0 (V' k) i)
    (hcov : ∀ e j, D e → j < 4 → link A e j ≠ 0 → ¬ D (link A e j / 4) →
      ∃ k i, N k ∧ i < 4 ∧ outer k i ∧ src k i = (e, j))
    (hrest : ∀ k, used k → ¬ D k → ∀ i < 4, (link A k i = 0 ∨ ¬ D (link A k i / 4)) →
      link A' k i = link A k i)
    (hV : ∀ k, used k → ¬ D k → V' k = V k) :
    AdjOK A' V' (fun k => (used k ∧ ¬ D k) ∨ N k) := by
  constructor
  · rintro k (⟨h, _⟩ | h)
    · exact hA.pos k h
    · exact (hN k h).1
  · rintro k hk i hi hne
    by_cases hNk : N k
    · by_cases ho : outer k i
      · obtain ⟨hDs, hs4, hl, hf, hb⟩ := hout k i hNk hi ho
        obtain ⟨hnD, hsym⟩ := hb hne
        obtain ⟨hu, _, _, hface⟩ := hA.ok _ (hD _ hDs) _ hs4 (hl ▸ hne)
        rw [← hl] at hu hface
        refine ⟨.inl ⟨hu, hnD⟩, ?_, hsym, ?_⟩
        · intro he
          rw [he] at hu hnD
          exact hnD ((hN _ hNk).2 hu)
        · rw [hV _ hu hnD, hface, hf]
      · obtain ⟨h1, h2, h3, h4⟩ := hin k i hNk hi ho hne
        exact ⟨.inr h1, h2, h3, h4⟩
    · obtain ⟨hu, hnD⟩ := hk.resolve_right hNk
      by_cases hto : link A k i ≠ 0 ∧ D (link A k i / 4)
      · obtain ⟨h0, hDt⟩ := hto
        obtain ⟨_, _, hsym, hface⟩ := hA.ok k hu i hi h0
        have hm : link A k i % 4 < 4 := Nat.mod_lt _ (by decide)
        generalize he : link A k i / 4 = e at *
        generalize hj : link A k i % 4 = j at *
        have hk1 := hA.pos k hu
        obtain ⟨k', i', hN', hi', ho', hs⟩ := hcov e j hDt hm (by omega)
          (by rw [hsym, show (4 * k + i) / 4 = k by omega]; exact hnD)
        obtain ⟨_, _, hl, hf, hb⟩ := hout k' i' hN' hi' ho'
        rw [hs] at hl hf
        simp only [hsym] at hl
        have e1 : (4 * k + i) / 4 = k := by omega
        have e2 : (4 * k + i) % 4 = i := by omega
        have hne' : link A' k' i' ≠ 0 := by omega
        have hback := (hb hne').2
        rw [hl, e1, e2] at hback
        rw [hback]
        have e3 : (4 * k' + i') / 4 = k' := by omega
        have e4 : (4 * k' + i') % 4 = i' := by omega
        rw [e3, e4]
        refine ⟨.inr hN', fun h => hNk (h ▸ hN'), hl, ?_⟩
        rw [hf, hV k hu hnD]
        exact hface
      · have hor : link A k i = 0 ∨ ¬ D (link A k i / 4) := by
          by_cases h : link A k i = 0
          · exact .inl h
          · exact .inr fun h' => hto ⟨h, h'⟩
        have hl := hrest k hu hnD i hi hor
        rw [hl] at hne ⊢
        obtain ⟨hu', hself, hsym, hface⟩ := hA.ok k hu i hi hne
        have hnD' : ¬ D (link A k i / 4) := hor.resolve_left hne
        refine ⟨.inl ⟨hu', hnD'⟩, hself, ?_, ?_⟩
        · rw [hrest _ hu' hnD' _ (Nat.mod_lt _ (by decide)), hsym]
          right
          rw [hsym, show (4 * k + i) / 4 = k by omega]
          exact hnD
        · rw [hV k hu hnD, hV _ hu' hnD']
          exact hface

/-- The same, when every other face has a neighbour. -/
theorem reglue {A A' : Nat → Nat} {V V' : Nat → List Nat} {used : Nat → Prop}
    (hA : AdjOK A V used) (D N : Nat → Prop) (outer : Nat → Nat → Prop)
    (src : Nat → Nat → Nat × Nat)
    (hD : ∀ k, D k → used k) (hN : ∀ k, N k → 1 ≤ k ∧ (used k → D k))
    (hout : ∀ k i, N k → i < 4 → outer k i → D (src k i).1 ∧ (src k i).2 < 4 ∧
      link A' k i = link A (src k i).1 (src k i).2 ∧
      faceTri 0 (V' k) i = faceTri 0 (V (src k i).1) (src k i).2 ∧
      (link A' k i ≠ 0 → ¬ D (link A' k i / 4) ∧
        link A' (link A' k i / 4) (link A' k i % 4) = 4 * k + i))
    (hin : ∀ k i, N k → i < 4 → ¬ outer k i → N (link A' k i / 4) ∧ link A' k i / 4 ≠ k ∧
      link A' (link A' k i / 4) (link A' k i % 4) = 4 * k + i ∧
      faceTri 0 (V' (link A' k i / 4)) (link A' k i % 4) = faceTri 0 (V' k) i)
    (hcov : ∀ e j, D e → j < 4 → link A e j ≠ 0 → ¬ D (link A e j / 4) →
      ∃ k i, N k ∧ i < 4 ∧ outer k i ∧ src k i = (e, j))
    (hrest : ∀ k, used k → ¬ D k → ∀ i < 4, (link A k i = 0 ∨ ¬ D (link A k i / 4)) →
      link A' k i = link A k i)
    (hV : ∀ k, used k → ¬ D k → V' k = V k) :
    AdjOK A' V' (fun k => (used k ∧ ¬ D k) ∨ N k) :=
  reglue' hA D N outer src hD hN hout (fun k i h1 h2 h3 _ => hin k i h1 h2 h3) hcov hrest hV

end Mmg.Split3
