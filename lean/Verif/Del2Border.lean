/- C91: the border of a cavity (helper lemmas). -/
import Verif.Del2Cav
import Verif.Del2Plane
import Verif.Tri2Circ
import Mathlib.Algebra.BigOperators.Group.Finset.Sigma
import Mathlib.Algebra.Order.BigOperators.Group.Finset
import Mathlib.Algebra.BigOperators.Ring.Finset

namespace Mmg.Del2

open Mmg.Tri2

variable {M : Mesh} {l : List Nat}

open Classical in
/-- The border as a set. -/
noncomputable def border (M : Mesh) (l : List Nat) : Finset HE := (l.toFinset ×ˢ Finset.univ).filter (Ext M l)

open Classical in
theorem mem_border {x : HE} : x ∈ border M l ↔ Ext M l x := by
  unfold border
  rw [Finset.mem_filter, Finset.mem_product]
  refine ⟨fun h => h.2, fun h => ⟨⟨?_, Finset.mem_univ _⟩, h⟩⟩
  exact List.mem_toFinset.2 h.1

/-- A circulation over the cavity is one over its border. -/
theorem border_sum {G : Type} [AddCommGroup G] (hv : Valid M) (hl : ∀ k ∈ l, M.live k) {f : Nat → Nat → G} (hf : Anti f) :
    ∑ k ∈ l.toFinset, triCirc f (M.tri k) = ∑ x ∈ border M l, f (M.org x) (M.dst x) := by
  classical
  have e1 : ∀ k, triCirc f (M.tri k) = ∑ i : Fin 3, f (M.org (k, i)) (M.dst (k, i)) := by
    intro k
    rw [Fin.sum_univ_three]
    unfold triCirc Mesh.org Mesh.dst
    simp only [Fin.isValue, zero_add]
    rw [show (1 : Fin 3) + 1 = 2 from rfl, show (1 : Fin 3) + 2 = 0 from rfl, show (2 : Fin 3) + 1 = 0 from rfl,
      show (2 : Fin 3) + 2 = 1 from rfl]
    rw [add_assoc, add_comm]
    rfl
  rw [Finset.sum_congr rfl fun k _ => e1 k]
  rw [← Finset.sum_product' l.toFinset Finset.univ fun k i => f (M.org (k, i)) (M.dst (k, i))]
  rw [← Finset.sum_filter_add_sum_filter_not (l.toFinset ×ˢ Finset.univ) (Ext M l)]
  have e2 : border M l = (l.toFinset ×ˢ Finset.univ).filter (Ext M l) := by
    unfold border
    congr
  rw [e2]
  refine (add_eq_left.2 ?_)
  have key : ∀ x ∈ (l.toFinset ×ˢ (Finset.univ : Finset (Fin 3))).filter fun x => ¬ Ext M l x,
      ∃ y, M.adj x = some y ∧ y.1 ∈ l ∧ x.1 ∈ l := by
    intro x hx
    rw [Finset.mem_filter, Finset.mem_product] at hx
    have h1 : x.1 ∈ l := List.mem_toFinset.1 hx.1.1
    have h2 := hx.2
    unfold Ext at h2
    push Not at h2
    obtain ⟨y, e, q⟩ := h2 h1
    exact ⟨y, e, q, h1⟩
  refine Finset.sum_involution (fun x _ => (M.adj x).getD (0, 0)) ?_ ?_ ?_ ?_
  · intro x hx
    obtain ⟨y, e, q, q'⟩ := key x hx
    obtain ⟨_, _, a, b⟩ := hv.link x y (hl _ q') e
    simp only [e, Option.getD_some]
    rw [a, b, hf (M.org x) (M.dst x)]
    abel
  · intro x hx _
    obtain ⟨y, e, q, q'⟩ := key x hx
    simp only [e, Option.getD_some]
    rintro rfl
    exact hv.no_self (hl _ q') y.2 y.2 e
  · intro x hx
    obtain ⟨y, e, q, q'⟩ := key x hx
    obtain ⟨_, a, _⟩ := hv.link x y (hl _ q') e
    simp only [e, Option.getD_some]
    rw [Finset.mem_filter, Finset.mem_product]
    refine ⟨⟨List.mem_toFinset.2 q, Finset.mem_univ _⟩, fun c => c.2 x a q'⟩
  · intro x hx
    obtain ⟨y, e, q, q'⟩ := key x hx
    obtain ⟨_, a, _⟩ := hv.link x y (hl _ q') e
    simp only [e, Option.getD_some, a]

/-- The border is closed. -/
theorem border_closed (hv : Valid M) (hl : ∀ k ∈ l, M.live k) {G : Type} [AddCommGroup G] (g : Nat → G) :
    ∑ x ∈ border M l, (g (M.dst x) - g (M.org x)) = 0 := by
  rw [← border_sum hv hl (f := fun a b => g b - g a) (fun a b => (neg_sub (g b) (g a)).symm)]
  apply Finset.sum_eq_zero
  intro k _
  unfold triCirc
  beta_reduce
  rw [sub_add_sub_cancel', sub_add_sub_cancel, sub_self]

/-- New triangles against those of the cavity. -/
theorem fan_sum (hv : Valid M) (hl : ∀ k ∈ l, M.live k) {G : Type} [AddCommGroup G] {f : Nat → Nat → G} (hf : Anti f) (ip : Nat) :
    ∑ x ∈ border M l, (f (M.org x) (M.dst x) + f (M.dst x) ip + f ip (M.org x)) = ∑ k ∈ l.toFinset, triCirc f (M.tri k) := by
  have h := border_closed hv hl (fun v => f v ip)
  rw [border_sum hv hl hf, ← sub_eq_zero, ← Finset.sum_sub_distrib, ← h]
  apply Finset.sum_congr rfl
  intro x _
  rw [hf (M.org x) ip]
  abel

theorem border_next (hv : Valid M) (hl : ∀ k ∈ l, M.live k) {x : HE} (hx : Ext M l x) :
    (∃ y, Ext M l y ∧ M.org y = M.dst x) ∧ ∃ y, Ext M l y ∧ M.dst y = M.org x := by
  constructor
  · by_contra c
    push Not at c
    have h := border_closed hv hl (fun v => if v = M.dst x then (1 : Int) else 0)
    have : ∑ y ∈ border M l, ((if M.dst y = M.dst x then (1 : Int) else 0) - if M.org y = M.dst x then (1 : Int) else 0) ≥
        (if M.dst x = M.dst x then (1 : Int) else 0) - if M.org x = M.dst x then (1 : Int) else 0 := by
      apply Finset.single_le_sum (f := fun y => ((if M.dst y = M.dst x then (1 : Int) else 0) - if M.org y = M.dst x then (1 : Int) else 0))
      · intro y hy
        rw [if_neg (c y (mem_border.1 hy))]
        split <;> simp
      · exact mem_border.2 hx
    rw [h, if_pos rfl, if_neg (c x hx)] at this
    omega
  · by_contra c
    push Not at c
    have h := border_closed hv hl (fun v => if v = M.org x then (-1 : Int) else 0)
    have : ∑ y ∈ border M l, ((if M.dst y = M.org x then (-1 : Int) else 0) - if M.org y = M.org x then (-1 : Int) else 0) ≥
        (if M.dst x = M.org x then (-1 : Int) else 0) - if M.org x = M.org x then (-1 : Int) else 0 := by
      apply Finset.single_le_sum (f := fun y => ((if M.dst y = M.org x then (-1 : Int) else 0) - if M.org y = M.org x then (-1 : Int) else 0))
      · intro y hy
        rw [if_neg (c y (mem_border.1 hy))]
        split <;> simp
      · exact mem_border.2 hx
    rw [h, if_pos rfl, if_neg (c x hx)] at this
    omega

/-! ### Triangulations of the plane -/

section
variable {K : Type} [Field K] [LinearOrder K] {cx cy : Nat → K}

/-- Strictly inside of triangle `k`. -/
def InT (cx cy : Nat → K) (M : Mesh) (k : Nat) (p : K × K) : Prop :=
  In (cx ((M.tri k).v 0), cy ((M.tri k).v 0)) (cx ((M.tri k).v 1), cy ((M.tri k).v 1)) (cx ((M.tri k).v 2), cy ((M.tri k).v 2)) p

/-- In triangle `k` or on its border. -/
def InCT (cx cy : Nat → K) (M : Mesh) (k : Nat) (p : K × K) : Prop :=
  InC (cx ((M.tri k).v 0), cy ((M.tri k).v 0)) (cx ((M.tri k).v 1), cy ((M.tri k).v 1)) (cx ((M.tri k).v 2), cy ((M.tri k).v 2)) p

/-- The triangles are positive and do not overlap. -/
structure Planar (cx cy : Nat → K) (M : Mesh) : Prop where
  pos : ∀ k, M.live k → 0 < area cx cy ((M.tri k).v 0) ((M.tri k).v 1) ((M.tri k).v 2)
  disj : ∀ k k' p, M.live k → M.live k' → InT cx cy M k p → InT cx cy M k' p → k = k'

/-- Crossing number for vertices. -/
def wv (cx cy : Nat → K) (p : K × K) (a b : Nat) : Int := wn p (cx a, cy a) (cx b, cy b)

variable [IsStrictOrderedRing K]

theorem wv_anti (p : K × K) : Anti (wv cx cy p) := fun _ _ => wn_anti _ _ _

omit [IsStrictOrderedRing K] in
theorem area_pos {a b c : Nat} (h : 0 < area cx cy a b c) : 0 < ar (cx a, cy a) (cx b, cy b) (cx c, cy c) := h

theorem Planar.w01 (h : Planar cx cy M) {k : Nat} (hk : M.live k) (p : K × K) :
    (triCirc (wv cx cy p) (M.tri k) = 0 ∨ (triCirc (wv cx cy p) (M.tri k) = 1 ∧ InCT cx cy M k p)) ∧
    (InT cx cy M k p → triCirc (wv cx cy p) (M.tri k) = 1) := by
  have := tri_wn p (area_pos (h.pos k hk))
  refine ⟨this.1.imp_right fun q => ⟨q.1, q.2.1.nonneg, q.2.2.1.nonneg, q.2.2.2.nonneg⟩, this.2⟩

theorem Planar.sum_le (h : Planar cx cy M) {S : Finset Nat} (hS : ∀ k ∈ S, M.live k) (p : K × K) :
    0 ≤ ∑ k ∈ S, triCirc (wv cx cy p) (M.tri k) ∧ ∑ k ∈ S, triCirc (wv cx cy p) (M.tri k) ≤ 1 := by
  have h0 : ∀ k ∈ S, 0 ≤ triCirc (wv cx cy p) (M.tri k) := by
    intro k hk
    rcases (h.w01 (hS k hk) p).1 with q | q
    · rw [q]
    · rw [q.1]; decide
  refine ⟨Finset.sum_nonneg h0, ?_⟩
  by_cases c : ∃ k ∈ S, triCirc (wv cx cy p) (M.tri k) = 1
  · obtain ⟨k, hk, e⟩ := c
    rw [Finset.sum_eq_single_of_mem k hk]
    · rw [e]
    · intro k' hk' hne
      rcases (h.w01 (hS k' hk') p).1 with q | q
      · exact q
      · exfalso
        obtain ⟨r, r1, r2⟩ := common (h.pos k (hS k hk)) (h.pos k' (hS k' hk')) e q.1
        exact hne (h.disj k' k r (hS k' hk') (hS k hk) r2 r1)
  · push Not at c
    rw [Finset.sum_eq_zero]
    · decide
    · intro k hk
      exact (h.w01 (hS k hk) p).1.resolve_right fun q => c k hk q.1

/-- Seen from `ip` with positive areas, the border is a simple line: no vertex is the first end of two of its sides. -/
theorem border_simple (hv : Valid M) (hp : Planar cx cy M) (hl : ∀ k ∈ l, M.live k) {ip : Nat}
    (ha : ∀ x, Ext M l x → 0 < area cx cy (M.org x) (M.dst x) ip) {x y : HE} (hx : Ext M l x) (hy : Ext M l y)
    (h : M.org x = M.org y ∨ M.dst x = M.dst y) : x = y := by
  by_contra hne
  have main : ∀ q, In (cx (M.org x), cy (M.org x)) (cx (M.dst x), cy (M.dst x)) (cx ip, cy ip) q →
      In (cx (M.org y), cy (M.org y)) (cx (M.dst y), cy (M.dst y)) (cx ip, cy ip) q → False := by
    intro q hq hq'
    have hs := fan_sum hv hl (wv_anti (cx := cx) (cy := cy) q) ip
    have hle := (hp.sum_le (S := l.toFinset) (fun k hk => hl k (List.mem_toFinset.1 hk)) q).2
    rw [← hs] at hle
    have h0 : ∀ z ∈ border M l, 0 ≤ wv cx cy q (M.org z) (M.dst z) + wv cx cy q (M.dst z) ip + wv cx cy q ip (M.org z) := by
      intro z hz
      have := (tri_wn q (area_pos (ha z (mem_border.1 hz)))).1
      unfold wv
      rcases this with r | r
      · rw [r]
      · rw [r.1]; decide
    have h2 := Finset.sum_le_sum_of_subset_of_nonneg (s := {x, y}) (t := border M l) (f := fun z =>
        wv cx cy q (M.org z) (M.dst z) + wv cx cy q (M.dst z) ip + wv cx cy q ip (M.org z)) (by
          intro z hz
          simp only [Finset.mem_insert, Finset.mem_singleton] at hz
          rcases hz with rfl | rfl
          · exact mem_border.2 hx
          · exact mem_border.2 hy) (fun z hz _ => h0 z hz)
    rw [Finset.sum_pair hne] at h2
    have a1 : wv cx cy q (M.org x) (M.dst x) + wv cx cy q (M.dst x) ip + wv cx cy q ip (M.org x) = 1 := (tri_wn q (area_pos (ha x hx))).2 hq
    have a2 : wv cx cy q (M.org y) (M.dst y) + wv cx cy q (M.dst y) ip + wv cx cy q ip (M.org y) = 1 := (tri_wn q (area_pos (ha y hy))).2 hq'
    rw [a1, a2] at h2
    omega
  rcases h with h | h
  · have b1 : 0 < ar (cx ip, cy ip) (cx (M.org x), cy (M.org x)) (cx (M.dst x), cy (M.dst x)) := by
      rw [← ar_rot]; exact ha x hx
    have b2 : 0 < ar (cx ip, cy ip) (cx (M.org x), cy (M.org x)) (cx (M.dst y), cy (M.dst y)) := by
      rw [← ar_rot, h]; exact ha y hy
    obtain ⟨q, q1, q2⟩ := same_side b1 b2
    rw [h] at q2
    exact main q ⟨q1.2.1, q1.2.2, q1.1⟩ ⟨q2.2.1, q2.2.2, q2.1⟩
  · have b1 : 0 < ar (cx (M.dst x), cy (M.dst x)) (cx ip, cy ip) (cx (M.org x), cy (M.org x)) := by
      rw [ar_rot]; exact ha x hx
    have b2 : 0 < ar (cx (M.dst x), cy (M.dst x)) (cx ip, cy ip) (cx (M.org y), cy (M.org y)) := by
      rw [ar_rot, h]; exact ha y hy
    obtain ⟨q, q1, q2⟩ := same_side b1 b2
    rw [h] at q2
    exact main q ⟨q1.2.2, q1.1, q1.2.1⟩ ⟨q2.2.2, q2.1, q2.2.1⟩

end

end Mmg.Del2
