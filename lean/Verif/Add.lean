import Verif.AddModel
import Mathlib.Algebra.Order.Ring.Abs
import Mathlib.Tactic.Ring
import Mathlib.Data.Int.Order.Basic
import Mathlib.Algebra.Ring.Int.Defs

/-!
# C107: vertices and tetrahedra added through the API
-/

namespace Mmg.Add
open Mmg.Pool

/-! ### Tables without deletions -/

/-- The free slots are those above `top`, in order, up to `e`. -/
structure Fresh {α : Type} (p : Pool α) (e : Nat) : Prop where
  top_le : p.top ≤ e
  le_cap : e ≤ p.cap
  nil : p.nil = if p.top < e then p.top + 1 else 0
  link : ∀ k, p.top < k → k ≤ p.cap → (p.cell k).link = if k < e then k + 1 else 0

theorem alloc_fresh {α : Type} {z : Cell α} (hz : z.link = 0) {cap n : Nat} (h : n < cap) (ld : Nat → Cell α) :
    Fresh (alloc z cap n ld) (max (n + 1) (cap - 1)) := by
  refine ⟨?_, ?_, ?_, ?_⟩
  · simp only [alloc]; omega
  · simp only [alloc]; omega
  · exact (if_pos (show n < max (n + 1) (cap - 1) by omega)).symm
  · intro k h1 h2
    simp only [alloc] at h1 h2 ⊢
    unfold linkUp
    split
    · rw [if_pos (by omega)]
    · simp only
      rw [if_neg (by omega), if_neg (by omega), hz]

theorem realloc_fresh {α : Type} {z : Cell α} (hz : z.link = 0) {p : Pool α} {e g : Nat} (F : Fresh p e) (h : p.nil = 0) (hg : 1 ≤ g) :
    Fresh (realloc z p g) (max (p.top + 1) (p.cap + g - 1)) ∧ p.top < max (p.top + 1) (p.cap + g - 1) := by
  have h0 := F.nil
  have h1 := F.top_le
  have h2 := F.le_cap
  have h3 : ¬ p.top < e := by
    intro c
    rw [if_pos c] at h0
    omega
  refine ⟨⟨?_, ?_, ?_, ?_⟩, by omega⟩
  · simp only [realloc]; omega
  · simp only [realloc]; omega
  · exact (if_pos (show p.top < max (p.top + 1) (p.cap + g - 1) by omega)).symm
  · intro k a b
    simp only [realloc] at a b ⊢
    unfold linkUp
    split
    · rw [if_pos (by omega)]
    · rw [if_neg (by omega)]
      simp only
      split
      · exact hz
      · rw [F.link k a (by omega), if_neg (by omega)]

theorem newSlot_fresh {α : Type} {p : Pool α} {e : Nat} (F : Fresh p e) (h : p.top < e) (d : α) (x : Nat) :
    ∃ p', newSlot p d x = some (p', p.top + 1) ∧ Fresh p' e ∧ p'.top = p.top + 1 ∧ p'.cell (p.top + 1) = ⟨true, x, d⟩ ∧
      ∀ k ≤ p.top, p'.cell k = p.cell k := by
  have hn : p.nil = p.top + 1 := by rw [F.nil, if_pos h]
  have h2 := F.le_cap
  unfold newSlot
  rw [hn, if_neg (by omega), if_neg (by omega), if_pos (by omega)]
  refine ⟨_, rfl, ⟨?_, ?_, ?_, ?_⟩, rfl, by simp [put], ?_⟩
  · exact h
  · exact h2
  · exact F.link (p.top + 1) (by omega) (by omega)
  · intro k a b
    simp only at a b
    simp only [put]
    rw [if_neg (by omega)]
    exact F.link k (by omega) b
  · intro k a
    simp only [put]
    rw [if_neg (by omega)]

/-- Creation in a table without deletions. -/
theorem create_fresh {α : Type} {z : Cell α} (hz : z.link = 0) {p : Pool α} {e : Nat} (F : Fresh p e) (d : α) (x : Nat) (gap : Option Nat)
    (hg : ∀ g, gap = some g → 1 ≤ g) :
    (gap = none ∧ create z p d x gap = some (p, 0)) ∨
    ∃ p' e', create z p d x gap = some (p', p.top + 1) ∧ Fresh p' e' ∧ p'.top = p.top + 1 ∧ p'.cell (p.top + 1) = ⟨true, x, d⟩ ∧
      ∀ k ≤ p.top, p'.cell k = p.cell k := by
  by_cases c : p.top < e
  · obtain ⟨p', h1, h2⟩ := newSlot_fresh F c d x
    refine .inr ⟨p', e, ?_, h2⟩
    unfold create
    rw [h1]
    simp
  · have hn : p.nil = 0 := by rw [F.nil, if_neg c]
    have h1 : newSlot p d x = some (p, 0) := by unfold newSlot; rw [if_pos hn]
    unfold create
    rw [h1]
    cases gap with
    | none => exact .inl ⟨rfl, rfl⟩
    | some g =>
      obtain ⟨F', h'⟩ := realloc_fresh hz F hn (hg g rfl)
      obtain ⟨p', h3, h4, h5, h6, h7⟩ := newSlot_fresh F' h' d x
      refine .inr ⟨p', _, h3, h4, h5, h6, ?_⟩
      intro k hk
      rw [h7 k hk]
      have := F.top_le
      have := F.le_cap
      simp only [realloc, linkUp]
      rw [if_neg (by omega), if_neg (by omega)]

/-! ### The mesh -/

variable {K : Type} [CommRing K] [LinearOrder K]

/-- The vertices of the mesh are `V` and its tetrahedra `T`, in the order of their numbers. -/
structure Shows (M : Mesh K) (V : List (Pt K)) (T : List Tet) : Prop where
  np : M.pts.top = V.length
  ne : M.tets.top = T.length
  pt : ∀ k c, V[k]? = some c → (M.pts.cell (k + 1)).live = true ∧ (M.pts.cell (k + 1)).data = c
  tet : ∀ k t, T[k]? = some t → (M.tets.cell (k + 1)).live = true ∧ (M.tets.cell (k + 1)).data = t

/-- No vertex and no tetrahedron was deleted. -/
structure Fine (M : Mesh K) : Prop where
  pts : ∃ e, Fresh M.pts e
  tets : ∃ e, Fresh M.tets e

/-- C107, vertices: the answer is the number of a new last vertex with the given coordinates; nothing else changes. The answer is 0 only if more
memory is refused, and then the mesh does not change. Missing from the full statement: the reference, which is 0. -/
theorem C107_vertex_partial {M : Mesh K} {V : List (Pt K)} {T : List Tet} (F : Fine M) (S : Shows M V T) (d : Pt K) (gap : Option Nat)
    (hg : ∀ g, gap = some g → 1 ≤ g) :
    ∃ M' a, addVertex M d gap = some (M', a) ∧ Fine M' ∧
      ((a = 0 ∧ gap = none ∧ M' = M) ∨ (a = V.length + 1 ∧ Shows M' (V ++ [⟨d.x, d.y, d.z, 0⟩]) T)) := by
  obtain ⟨e, hF⟩ := F.pts
  rcases create_fresh (z := zP) rfl hF ⟨d.x, d.y, d.z, 0⟩ 0 gap hg with ⟨h1, h2⟩ | ⟨p', e', h1, h2, h3, h4, h5⟩
  · refine ⟨M, 0, ?_, F, .inl ⟨rfl, h1, rfl⟩⟩
    unfold addVertex
    rw [h2]
    rfl
  · refine ⟨{ M with pts := p' }, ((M.pts.top + 1 : Nat) : Int), ?_, ⟨⟨e', h2⟩, F.tets⟩, .inr ⟨?_, ?_⟩⟩
    · unfold addVertex
      rw [h1]
      rfl
    · rw [S.np]; push_cast; rfl
    · refine ⟨?_, S.ne, ?_, S.tet⟩
      · simp only [h3, S.np, List.length_append, List.length_cons, List.length_nil]
      · intro k c hk
        rw [List.getElem?_append] at hk
        split at hk
        · rename_i hlt
          simp only
          rw [h5 (k + 1) (by rw [S.np]; omega)]
          exact S.pt k c hk
        · rename_i hge
          rw [List.getElem?_singleton] at hk
          split at hk
          · have : k + 1 = M.pts.top + 1 := by rw [S.np]; omega
            simp only [Option.some.injEq] at hk
            simp only
            rw [this, h4, ← hk]
            exact ⟨rfl, rfl⟩
          · cases hk

/-- C107 fails for the reference of vertices: it is lost. -/
theorem C107_reference_observed {M : Mesh K} {V : List (Pt K)} {T : List Tet} (F : Fine M) (S : Shows M V T) (d : Pt K) (g : Nat)
    (hg : 1 ≤ g) (hr : d.ref ≠ 0) :
    ∃ M' : Mesh K, addVertex M d (some g) = some (M', (V.length : Int) + 1) ∧ (M'.pts.cell (V.length + 1)).data.ref = 0 ∧
      (M'.pts.cell (V.length + 1)).data ≠ d := by
  obtain ⟨M', a, h1, _, ⟨_, h2, _⟩ | ⟨h2, h3⟩⟩ := C107_vertex_partial F S d (some g) (by intro g' e; cases e; exact hg)
  · cases h2
  · have := (h3.pt V.length ⟨d.x, d.y, d.z, 0⟩ (by simp)).2
    refine ⟨M', by rw [h1, h2], by rw [this], ?_⟩
    rw [this]
    intro e
    exact hr (by rw [← e])

/-- Exchange of two vertices. -/
theorem orvol_swap (c : Nat → Pt K) (t : Tet) (r : Int) : orvol c { t with v2 := t.v3, v3 := t.v2, ref := r } = - orvol c t := by
  unfold orvol
  ring

theorem revive_data (p : Pool (Pt K)) (t : Tet) (k : Nat) : ((revive p t).cell k).data = (p.cell k).data := by
  unfold revive
  simp only
  split <;> rfl

theorem revive_fresh {p : Pool (Pt K)} {e : Nat} (F : Fresh p e) (t : Tet) : Fresh (revive p t) e := by
  refine ⟨F.top_le, F.le_cap, F.nil, fun k a b => ?_⟩
  rw [← F.link k a b]
  unfold revive
  simp only
  split <;> rfl

theorem revive_shows {M : Mesh K} {V : List (Pt K)} {T : List Tet} (S : Shows M V T) (t : Tet) : 
    ∀ k c, V[k]? = some c → ((revive M.pts t).cell (k + 1)).live = true ∧ ((revive M.pts t).cell (k + 1)).data = c := by
  intro k c h
  refine ⟨?_, by rw [revive_data]; exact (S.pt k c h).2⟩
  unfold revive
  simp only
  split
  · rfl
  · exact (S.pt k c h).1

/-- A table with one more element. -/
theorem tet_append {q p : Pool Tet} {T : List Tet} {t : Tet} {x : Nat} (hp : p.top = T.length)
    (S : ∀ k t, T[k]? = some t → (p.cell (k + 1)).live = true ∧ (p.cell (k + 1)).data = t) (h4 : q.cell (p.top + 1) = ⟨true, x, t⟩)
    (h5 : ∀ k ≤ p.top, q.cell k = p.cell k) :
    ∀ k s, (T ++ [t])[k]? = some s → (q.cell (k + 1)).live = true ∧ (q.cell (k + 1)).data = s := by
  intro k c hk
  rw [List.getElem?_append] at hk
  split at hk
  · rename_i hlt
    rw [h5 (k + 1) (by rw [hp]; omega)]
    exact S k c hk
  · rename_i hge
    rw [List.getElem?_singleton] at hk
    split at hk
    · have : k + 1 = p.top + 1 := by rw [hp]; omega
      simp only [Option.some.injEq] at hk
      rw [this, h4, ← hk]
      exact ⟨rfl, rfl⟩
    · cases hk

/-- C107, tetrahedra: the answer is 0 if a vertex does not exist or more memory is refused, and then the mesh does not change. Otherwise its
absolute value is the number of a new last tetrahedron, with the absolute value of the reference; it is the given one, or the given one with the two
last vertices exchanged if its volume is negative. The answer is positive if and only if the volume of the given tetrahedron is positive (above
`eps`), and the volume of the stored one is positive unless it vanishes (up to `eps`). -/
theorem C107_tet [IsOrderedRing K] {eps : K} (he : 0 ≤ eps) {M : Mesh K} {V : List (Pt K)} {T : List Tet} (F : Fine M) (S : Shows M V T) (t : Tet)
    (gap : Option Nat) (hg : ∀ g, gap = some g → 1 ≤ g) (c : Nat → Pt K) (hc : ∀ k p, V[k]? = some p → c (k + 1) = p)
    (h1 : 1 ≤ t.v0 ∧ 1 ≤ t.v1 ∧ 1 ≤ t.v2 ∧ 1 ≤ t.v3) :
    ∃ M' a, addTet eps M t gap = some (M', a) ∧ Fine M' ∧
      ((a = 0 ∧ M' = M ∧ (gap = none ∨ V.length < t.v0 ∨ V.length < t.v1 ∨ V.length < t.v2 ∨ V.length < t.v3)) ∨
       ((t.v0 ≤ V.length ∧ t.v1 ≤ V.length ∧ t.v2 ≤ V.length ∧ t.v3 ≤ V.length) ∧ a.natAbs = T.length + 1 ∧ (0 < a ↔ eps < orvol c t) ∧
        ∃ t', Shows M' V (T ++ [t']) ∧ t'.ref = |t.ref| ∧
          ((t' = ⟨t.v0, t.v1, t.v2, t.v3, |t.ref|⟩ ∧ - eps ≤ orvol c t) ∨ (t' = ⟨t.v0, t.v1, t.v3, t.v2, |t.ref|⟩ ∧ orvol c t < - eps)) ∧
          (|orvol c t'| ≤ eps ∨ 0 < orvol c t'))) := by
  unfold addTet
  rw [S.np]
  by_cases hv : V.length < t.v0 ∨ V.length < t.v1 ∨ V.length < t.v2 ∨ V.length < t.v3
  · rw [if_pos hv]
    exact ⟨M, 0, rfl, F, .inl ⟨rfl, rfl, .inr hv⟩⟩
  · rw [if_neg hv]
    obtain ⟨ep, hFp⟩ := F.pts
    obtain ⟨e, hF⟩ := F.tets
    rcases create_fresh (z := zT) rfl hF { t with ref := |t.ref| } t.v3 gap hg with ⟨g1, g2⟩ | ⟨q, e', g1, g2, g3, g4, g5⟩
    · rw [g2]
      exact ⟨M, 0, by simp, F, .inl ⟨rfl, rfl, .inl g1⟩⟩
    · rw [g1]
      simp only
      rw [if_neg (by omega)]
      have hd : ∀ k, 1 ≤ k → k ≤ V.length → ((revive M.pts t).cell k).data = c k := by
        intro k a b
        obtain ⟨j, rfl⟩ : ∃ j, k = j + 1 := ⟨k - 1, by omega⟩
        have hj : V[j]? = some V[j] := List.getElem?_eq_getElem (by omega)
        rw [revive_data, (S.pt j _ hj).2, hc j _ hj]
      have hvol : orvol (fun k => ((revive M.pts t).cell k).data) t = orvol c t := by
        unfold orvol
        simp only
        rw [hd t.v0 (by omega) (by omega), hd t.v1 (by omega) (by omega), hd t.v2 (by omega) (by omega), hd t.v3 (by omega) (by omega)]
      rw [hvol]
      have hin : t.v0 ≤ V.length ∧ t.v1 ≤ V.length ∧ t.v2 ≤ V.length ∧ t.v3 ≤ V.length := by omega
      have hr : ∀ r, orvol c { t with ref := r } = orvol c t := fun _ => rfl
      have hq : Shows (⟨revive M.pts t, q⟩ : Mesh K) V (T ++ [{ t with ref := |t.ref| }]) :=
        ⟨S.np, by simp [g3, S.ne], revive_shows S t, tet_append S.ne S.tet g4 g5⟩
      by_cases k1 : |orvol c t| ≤ eps
      · rw [if_pos k1]
        refine ⟨_, _, rfl, ⟨⟨ep, revive_fresh hFp t⟩, ⟨e', g2⟩⟩, .inr ⟨hin, by rw [S.ne]; omega, ?_, _, hq, rfl, .inl ⟨rfl, (abs_le.mp k1).1⟩, .inl ?_⟩⟩
        · have := (abs_le.mp k1).2
          constructor
          · intro h; omega
          · intro h; exact absurd (lt_of_lt_of_le h this) (lt_irrefl _)
        · rw [hr]; exact k1
      · rw [if_neg k1]
        by_cases k2 : orvol c t < 0
        · rw [if_pos k2]
          have k3 : orvol c t < - eps := by
            rw [abs_of_neg k2] at k1
            exact lt_neg_of_lt_neg (not_le.mp k1)
          refine ⟨_, _, rfl, ⟨⟨ep, revive_fresh hFp t⟩, ⟨e', ⟨g2.top_le, g2.le_cap, g2.nil, ?_⟩⟩⟩,
            .inr ⟨hin, by rw [S.ne]; omega, ?_, { t with v2 := t.v3, v3 := t.v2, ref := |t.ref| }, ⟨S.np, by simp [g3, S.ne], revive_shows S t, ?_⟩, rfl,
              .inr ⟨rfl, k3⟩, .inr ?_⟩⟩
          · intro k a b
            simp only at a b ⊢
            rw [← g2.link k a b]
            simp only [put]
            rw [if_neg (by omega)]
          · constructor
            · intro h; omega
            · intro h; exact absurd (lt_of_le_of_lt he (lt_trans h k2)) (lt_irrefl _)
          · refine tet_append (x := t.v2) S.ne S.tet (by simp [put]) ?_
            intro k hk
            simp only [put]
            rw [if_neg (by omega)]
            exact g5 k hk
          · rw [orvol_swap]
            exact neg_pos.mpr k2
        · rw [if_neg k2]
          have k3 := not_lt.mp k2
          have k4 : eps < orvol c t := by
            rw [abs_of_nonneg k3] at k1
            exact not_le.mp k1
          refine ⟨_, _, rfl, ⟨⟨ep, revive_fresh hFp t⟩, ⟨e', g2⟩⟩, .inr ⟨hin, by rw [S.ne]; omega, ?_, _, hq, rfl,
            .inl ⟨rfl, le_trans (neg_nonpos.mpr he) k3⟩, .inr ?_⟩⟩
          · exact ⟨fun _ => k4, fun _ => by omega⟩
          · rw [hr]; exact lt_of_le_of_lt he k4

/-- C107 fails for the vertex 0, which does not exist: the test is only on numbers above the last one, so the tetrahedron is taken. (With `v[0] = 0`
it counts as not used, and is in the table but in no output.) -/
theorem C107_zero_observed (eps : K) {M : Mesh K} {V : List (Pt K)} {T : List Tet} (F : Fine M) (S : Shows M V T) (t : Tet) (g : Nat) (hg : 1 ≤ g)
    (h0 : t.v0 = 0) (h1 : t.v1 ≤ V.length ∧ t.v2 ≤ V.length ∧ t.v3 ≤ V.length) :
    ∃ M' a, addTet eps M t (some g) = some (M', a) ∧ a.natAbs = T.length + 1 ∧ M'.tets.top = T.length + 1 := by
  unfold addTet
  rw [S.np, if_neg (by omega)]
  obtain ⟨e, hF⟩ := F.tets
  rcases create_fresh (z := zT) rfl hF { t with ref := |t.ref| } t.v3 (some g) (by intro g' e; cases e; exact hg) with
    ⟨g1, _⟩ | ⟨q, e', g1, _, g3, _, _⟩
  · cases g1
  · rw [g1]
    simp only
    rw [if_neg (by omega)]
    have hn := S.ne
    split
    · exact ⟨_, _, rfl, by omega, by simp only [g3, hn]⟩
    · split
      · exact ⟨_, _, rfl, by omega, by simp only [g3, hn]⟩
      · exact ⟨_, _, rfl, by omega, by simp only [g3, hn]⟩

/-! ### Sequences of calls -/

/-- The vertices added: those of the calls not answered by 0, without their references. -/
def addedV : List (Op K) → List Int → List (Pt K)
  | .vertex d _ :: os, a :: as => if a = 0 then addedV os as else ⟨d.x, d.y, d.z, 0⟩ :: addedV os as
  | .tet _ _ :: os, _ :: as => addedV os as
  | _, _ => []

/-- The number of tetrahedra added. -/
def addedT : List (Op K) → List Int → Nat
  | .vertex _ _ :: os, _ :: as => addedT os as
  | .tet _ _ :: os, a :: as => if a = 0 then addedT os as else addedT os as + 1
  | _, _ => 0

/-- What is asked from the caller and the allocator: an allocation that is granted is not empty, vertices are counted from 1. -/
def Asked : Op K → Prop
  | .vertex _ gap => ∀ g, gap = some g → 1 ≤ g
  | .tet t gap => (∀ g, gap = some g → 1 ≤ g) ∧ 1 ≤ t.v0 ∧ 1 ≤ t.v1 ∧ 1 ≤ t.v2 ∧ 1 ≤ t.v3

/-- C107, for all sequences of calls: each call is answered, and the mesh shows what it showed before followed by all vertices and tetrahedra whose
call was not answered by 0, in the order of the calls. Missing from the full statement: the references of vertices. -/
theorem C107_history_partial [IsOrderedRing K] {eps : K} (he : 0 ≤ eps) : ∀ (os : List (Op K)) {M : Mesh K} {V : List (Pt K)} {T : List Tet}, Fine M →
    Shows M V T → (∀ o ∈ os, Asked o) → ∃ M' as W, run eps M os = some (M', as) ∧ as.length = os.length ∧ Fine M' ∧
      Shows M' (V ++ addedV os as) (T ++ W) ∧ W.length = addedT os as
  | [], M, V, T, F, S, _ => ⟨M, [], [], rfl, rfl, F, by simpa [addedV] using S, rfl⟩
  | .vertex d gap :: os, M, V, T, F, S, h => by
    obtain ⟨M1, a, h1, F1, h2⟩ := C107_vertex_partial F S d gap (h _ (List.mem_cons_self ..))
    have hr : ∀ o ∈ os, Asked o := fun o ho => h o (List.mem_cons_of_mem _ ho)
    rcases h2 with ⟨ha, _, rfl⟩ | ⟨ha, S1⟩
    · obtain ⟨M2, as, W, r1, r2, r3, r4, r5⟩ := C107_history_partial he os F S hr
      refine ⟨M2, a :: as, W, ?_, by simp [r2], r3, ?_, ?_⟩
      · simp only [run, call, h1, r1, Option.map_some]
      · simpa only [addedV, if_pos ha] using r4
      · simpa only [addedT] using r5
    · obtain ⟨M2, as, W, r1, r2, r3, r4, r5⟩ := C107_history_partial he os F1 S1 hr
      refine ⟨M2, a :: as, W, ?_, by simp [r2], r3, ?_, ?_⟩
      · simp only [run, call, h1, r1, Option.map_some]
      · simp only [addedV]
        rw [if_neg (by omega)]
        simpa using r4
      · simpa only [addedT] using r5
  | .tet t gap :: os, M, V, T, F, S, h => by
    have h0 := h _ (List.mem_cons_self ..)
    obtain ⟨M1, a, h1, F1, h2⟩ := C107_tet he F S t gap h0.1 (fun k => V.getD (k - 1) ⟨0, 0, 0, 0⟩)
      (by intro k p hk; simp [List.getD_eq_getElem?_getD, hk]) h0.2
    have hr : ∀ o ∈ os, Asked o := fun o ho => h o (List.mem_cons_of_mem _ ho)
    rcases h2 with ⟨ha, rfl, _⟩ | ⟨_, ha, _, t', S1, _⟩
    · obtain ⟨M2, as, W, r1, r2, r3, r4, r5⟩ := C107_history_partial he os F S hr
      refine ⟨M2, a :: as, W, ?_, by simp [r2], r3, ?_, ?_⟩
      · simp only [run, call, h1, r1, Option.map_some]
      · simpa only [addedV] using r4
      · simp only [addedT]; rw [if_pos ha]; exact r5
    · obtain ⟨M2, as, W, r1, r2, r3, r4, r5⟩ := C107_history_partial he os F1 S1 hr
      refine ⟨M2, a :: as, t' :: W, ?_, by simp [r2], r3, ?_, ?_⟩
      · simp only [run, call, h1, r1, Option.map_some]
      · simpa [addedV] using r4
      · simp only [addedT]
        rw [if_neg (by omega)]
        simp [r5]

/-- A mesh as left by `MMG3D_Set_meshSize` and the setting of its vertices and tetrahedra meets the hypotheses. -/
theorem alloc_fine {cp ct n m : Nat} (h1 : n < cp) (h2 : m < ct) (lp : Nat → Pt K) (lt : Nat → Tet) :
    Fine (⟨alloc zP cp n fun k => ⟨true, 0, lp k⟩, alloc zT ct m fun k => ⟨true, (lt k).v3, lt k⟩⟩ : Mesh K) ∧
    Shows (⟨alloc zP cp n fun k => ⟨true, 0, lp k⟩, alloc zT ct m fun k => ⟨true, (lt k).v3, lt k⟩⟩ : Mesh K)
      ((List.range n).map fun k => lp (k + 1)) ((List.range m).map fun k => lt (k + 1)) := by
  refine ⟨⟨⟨_, alloc_fresh rfl h1 _⟩, ⟨_, alloc_fresh rfl h2 _⟩⟩, by simp [alloc], by simp [alloc], ?_, ?_⟩
  · intro k c h
    rw [List.getElem?_map] at h
    by_cases hk : k < n
    · rw [List.getElem?_range hk] at h
      simp only [Option.map_some, Option.some.injEq] at h
      simp only [alloc, linkUp]
      rw [if_neg (by omega), if_pos (by omega)]
      exact ⟨rfl, h⟩
    · rw [List.getElem?_eq_none (by simpa using hk)] at h
      cases h
  · intro k c h
    rw [List.getElem?_map] at h
    by_cases hk : k < m
    · rw [List.getElem?_range hk] at h
      simp only [Option.map_some, Option.some.injEq] at h
      simp only [alloc, linkUp]
      rw [if_neg (by omega), if_pos (by omega)]
      exact ⟨rfl, h⟩
    · rw [List.getElem?_eq_none (by simpa using hk)] at h
      cases h

/-! ### Cases -/

/-- An empty mesh with few slots. -/
def m0 : Mesh Int := ⟨alloc zP 3 0 fun _ => zP, alloc zT 2 0 fun _ => zT⟩

/-- Five calls for vertices (the fifth is refused), an inverted tetrahedron, a flat one, one with a missing vertex, a good one. -/
def os0 : List (Op Int) := [.vertex ⟨0, 0, 0, 7⟩ none, .vertex ⟨1, 0, 0, 7⟩ none, .vertex ⟨0, 1, 0, 7⟩ (some 2), .vertex ⟨0, 0, 1, 7⟩ (some 1),
  .vertex ⟨1, 1, 1, 7⟩ none, .tet ⟨1, 2, 4, 3, -5⟩ (some 1), .tet ⟨1, 2, 2, 3, 4⟩ (some 1), .tet ⟨1, 2, 3, 5, 1⟩ none, .tet ⟨1, 2, 3, 4, 2⟩ (some 3)]

example : (run 0 m0 os0).map (fun q => q.2) = some [1, 2, 3, 4, 0, -1, -2, 0, 3] := by decide +kernel

example : ((run 0 m0 os0).map fun q => ([1, 2, 3].map fun k => (q.1.tets.cell k).data, (q.1.pts.cell 4).data.ref)) =
    some ([⟨1, 2, 3, 4, 5⟩, ⟨1, 2, 2, 3, 4⟩, ⟨1, 2, 3, 4, 2⟩], 0) := by decide +kernel

example : (run 0 m0 (os0 ++ [.tet ⟨0, 2, 3, 4, 1⟩ (some 1)])).map (fun q => q.2) = some [1, 2, 3, 4, 0, -1, -2, 0, 3, 4] := by decide +kernel

example : Fine m0 ∧ Shows m0 [] [] ∧ ∀ o ∈ os0, Asked o := by
  refine ⟨⟨⟨2, ?_⟩, ⟨1, ?_⟩⟩, ⟨rfl, rfl, by simp, by simp⟩, ?_⟩
  · exact alloc_fresh rfl (by decide) _
  · exact alloc_fresh rfl (by decide) _
  · intro o ho
    simp only [os0, List.mem_cons, List.not_mem_nil, or_false] at ho
    rcases ho with rfl | rfl | rfl | rfl | rfl | rfl | rfl | rfl | rfl <;> simp [Asked]

end Mmg.Add
