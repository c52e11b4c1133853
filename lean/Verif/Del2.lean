/- C91: what the insertion of a vertex in a 2D triangulation gives. -/
import Verif.Del2Border
import Verif.Del2Loop
import Mathlib.Algebra.Order.Ring.Rat
import Mathlib.Algebra.Field.Rat

namespace Mmg.Del2

open Mmg.Tri2
open Mmg.Hash (Outcome Hash hashNew hashGet hashEdge)

/-! ### Lemmas -/

theorem foldl_delTri (l : List Nat) : ∀ (M : Mesh),
    (∀ k, (l.foldl Mesh.delTri M).tri k = if k ∈ l then ⟨fun _ => 0, fun _ => 0, fun _ => 0, 0⟩ else M.tri k) ∧
    ∀ h, (l.foldl Mesh.delTri M).adj h = if h.1 ∈ l then none else M.adj h := by
  induction l with
  | nil => intro M; simp
  | cons a l ih =>
    intro M
    rw [List.foldl_cons]
    refine ⟨fun k => ?_, fun h => ?_⟩
    · rw [(ih _).1]
      simp only [Mesh.delTri, List.mem_cons]
      by_cases c : k ∈ l
      · simp [c]
      · by_cases c' : k = a <;> simp [c, c']
    · rw [(ih _).2]
      simp only [Mesh.delTri, List.mem_cons]
      by_cases c : h.1 ∈ l
      · simp [c]
      · by_cases c' : h.1 = a <;> simp [c, c']

theorem rot3 {F : Nat → Nat → Nat → Prop} (hF : ∀ a b c, F a b c → F b c a) (v : Fin 3 → Nat) (i : Fin 3) :
    F (v 0) (v 1) (v 2) ↔ F (v (i + 1)) (v (i + 2)) (v i) := by
  have hF2 : ∀ a b c, F a b c ↔ F b c a := fun a b c => ⟨hF a b c, fun h => hF _ _ _ (hF _ _ _ h)⟩
  have hi : i = 0 ∨ i = 1 ∨ i = 2 := (by decide : ∀ i : Fin 3, i = 0 ∨ i = 1 ∨ i = 2) i
  rcases hi with rfl | rfl | rfl
  · exact hF2 _ _ _
  · exact (hF2 _ _ _).trans (hF2 _ _ _)
  · exact Iff.rfl

/-- Corners of the triangle over `x`. -/
theorem setV_v (t : Tri) (i : Fin 3) (ip : Nat) : (t.setV i ip).v i = ip ∧ (t.setV i ip).v (i + 1) = t.v (i + 1) ∧
    (t.setV i ip).v (i + 2) = t.v (i + 2) := by
  obtain ⟨i0, i1, _⟩ := f3 i
  unfold Tri.setV
  exact ⟨if_pos rfl, if_neg i0, if_neg i1⟩

/-- The result in terms of the sides of the cavity. -/
structure Fan (M M' : Mesh) (ip : Nat) (l : List Nat) (N : HE → Nat) : Prop where
  free : ∀ x, Ext M l x → N x ≠ 0 ∧ ¬ M.live (N x)
  inj : ∀ x y, Ext M l x → Ext M l y → N x = N y → x = y
  live : ∀ k, M'.live k ↔ (M.live k ∧ k ∉ l) ∨ ∃ x, Ext M l x ∧ k = N x
  old : ∀ k, M.live k → k ∉ l → M'.tri k = M.tri k
  tri : ∀ x, Ext M l x → M'.tri (N x) = (M.tri x.1).setV x.2 ip
  keep : ∀ h, M.live h.1 → h.1 ∉ l → (∀ y, M.adj h = some y → y.1 ∉ l) → M'.adj h = M.adj h
  back : ∀ x, Ext M l x → ∀ h, M.adj x = some h → M'.adj h = some (N x, x.2)
  ext : ∀ x, Ext M l x → M'.adj (N x, x.2) = M.adj x
  spoke : ∀ q q', Spoke M l q → Spoke M l q' → q ≠ q' → vert M q = vert M q' → M'.adj (N q.1, q.2) = some (N q'.1, q'.2)

section
variable {M : Mesh} {mark : Nat → Nat} {base ip : Nat} {l : List Nat} {tref : Int} {new : Nat → Nat} {g : Option Nat}

theorem Sit.fan (S : Sit M mark base ip tref l new) {a : Acc}
    (D : DInv M mark ip (num (extSides M mark base l) new) (extSides M mark base l) a) :
    Fan M (l.foldl Mesh.delTri a.M) ip l (num (extSides M mark base l) new) := by
  have Nfree : ∀ y, Ext M l y → num (extSides M mark base l) new y ≠ 0 ∧ ¬ M.live (num (extSides M mark base l) new y) := fun y hy => S.num_free hy
  have Ninj : ∀ y z, Ext M l y → Ext M l z → num (extSides M mark base l) new y = num (extSides M mark base l) new z → y = z :=
    fun y z hy hz h => S.num_inj hy hz h
  have mem : ∀ y, y ∈ extSides M mark base l ↔ Ext M l y := fun y => S.mem
  generalize num (extSides M mark base l) new = N at *
  generalize extSides M mark base l = X at *
  obtain ⟨ft, fa⟩ := foldl_delTri l a.M
  have Nl : ∀ y, Ext M l y → N y ∉ l := fun y hy c => (Nfree y hy).2 (S.cav.live _ c)
  have tgt : ∀ y, Ext M l y → ∀ h, M.adj y = some h → M.live h.1 ∧ M.adj h = some y ∧ h.1 ∉ l := by
    intro y hy h e
    obtain ⟨q1, q2, _⟩ := S.valid.link y h (S.cav.live _ hy.1) e
    exact ⟨q1, q2, hy.2 h e⟩
  have told : ∀ k, M.live k → k ∉ l → (l.foldl Mesh.delTri a.M).tri k = M.tri k := by
    intro k hk hl
    rw [ft, if_neg hl]
    exact D.tri k fun x hx c => (Nfree x ((mem x).1 hx)).2 (c ▸ hk)
  have tnew : ∀ x, Ext M l x → (l.foldl Mesh.delTri a.M).tri (N x) = (M.tri x.1).setV x.2 ip := by
    intro x hx
    rw [ft, if_neg (Nl x hx)]
    exact D.triN x ((mem x).2 hx)
  refine ⟨Nfree, Ninj, ?_, told, tnew, ?_, ?_, ?_, ?_⟩
  · intro k
    by_cases c : ∃ x, Ext M l x ∧ k = N x
    · refine iff_of_true ?_ (Or.inr c)
      obtain ⟨x, hx, rfl⟩ := c
      unfold Mesh.live
      rw [tnew x hx]
      unfold Tri.setV
      simp only
      split
      · exact S.ip0
      · exact (S.valid.pos _ (S.cav.live _ hx.1)).2 0
    · by_cases c' : k ∈ l
      · refine iff_of_false ?_ ?_
        · unfold Mesh.live; rw [ft, if_pos c']; simp
        · rintro (r | r)
          · exact r.2 c'
          · exact c r
      · have e : (l.foldl Mesh.delTri a.M).tri k = M.tri k := by
          rw [ft, if_neg c']
          exact D.tri k fun x hx r => c ⟨x, (mem x).1 hx, r⟩
        unfold Mesh.live
        rw [e]
        exact ⟨fun h => Or.inl ⟨h, c'⟩, fun h => h.elim (fun h => h.1) fun h => absurd h c⟩
  · intro h hl hn hy
    rw [fa, if_neg hn]
    apply D.out
    · intro x hx c
      exact (Nfree x ((mem x).1 hx)).2 (c ▸ hl)
    · intro x hx c
      exact hy x (tgt x ((mem x).1 hx) h c).2.1 ((mem x).1 hx).1
  · intro x hx h e
    rw [fa, if_neg (tgt x hx h e).2.2]
    exact D.back x ((mem x).2 hx) h e
  · intro x hx
    rw [fa, if_neg (Nl x hx)]
    exact D.ext x ((mem x).2 hx)
  · intro q q' hq hq' hne hv
    rw [fa, if_neg (Nl _ hq.1)]
    exact D.glued.lnk q (mem_spokes.2 ⟨(mem _).2 hq.1, hq.2⟩) q' (mem_spokes.2 ⟨(mem _).2 hq'.1, hq'.2⟩) hne hv

variable {M' : Mesh} {N : HE → Nat}

theorem Fan.valid (F : Fan M M' ip l N) (hv : Valid M) (hl : ∀ k ∈ l, M.live k) (ip0 : ip ≠ 0)
    (ipv : ∀ k, M.live k → ∀ i, (M.tri k).v i ≠ ip) : Valid M' := by
  have tgt : ∀ y, Ext M l y → ∀ h, M.adj y = some h → M.live h.1 ∧ M.adj h = some y ∧ h.1 ∉ l ∧ M.org h = M.dst y ∧ M.dst h = M.org y := by
    intro y hy h e
    obtain ⟨q1, q2, q3⟩ := hv.link y h (hl _ hy.1) e
    exact ⟨q1, q2, hy.2 h e, q3⟩
  have oldE : ∀ h : HE, M.live h.1 → h.1 ∉ l → M'.org h = M.org h ∧ M'.dst h = M.dst h := by
    intro h h1 h2
    unfold Mesh.org Mesh.dst
    rw [F.old _ h1 h2]; exact ⟨rfl, rfl⟩
  have newE : ∀ x, Ext M l x → M'.org (N x, x.2) = M.org x ∧ M'.dst (N x, x.2) = M.dst x := by
    intro x hx
    unfold Mesh.org Mesh.dst
    simp only
    rw [F.tri x hx]
    exact ⟨(setV_v _ _ _).2.1, (setV_v _ _ _).2.2⟩
  have newS1 : ∀ x, Ext M l x → M'.org (N x, x.2 + 1) = M.dst x ∧ M'.dst (N x, x.2 + 1) = ip := by
    intro x hx
    obtain ⟨_, _, _, i3, i4, _⟩ := f3 x.2
    unfold Mesh.org Mesh.dst
    simp only
    rw [F.tri x hx, i3, i4]
    exact ⟨(setV_v _ _ _).2.2, (setV_v _ _ _).1⟩
  have newS2 : ∀ x, Ext M l x → M'.org (N x, x.2 + 2) = ip ∧ M'.dst (N x, x.2 + 2) = M.org x := by
    intro x hx
    obtain ⟨_, _, _, _, _, i5, i6, _⟩ := f3 x.2
    unfold Mesh.org Mesh.dst
    simp only
    rw [F.tri x hx, i5, i6]
    exact ⟨(setV_v _ _ _).1, (setV_v _ _ _).2.1⟩
  have odne : ∀ x, Ext M l x → M.org x ≠ M.dst x := fun x hx => hv.distinct _ (hl _ hx.1) _ _ (f3 x.2).2.2.1
  constructor
  · intro k hk
    rcases (F.live k).1 hk with ⟨h1, h2⟩ | ⟨x, hx, rfl⟩
    · rw [F.old k h1 h2]; exact hv.pos k h1
    · refine ⟨(F.free x hx).1, fun i => ?_⟩
      rw [F.tri x hx]
      unfold Tri.setV
      simp only
      split
      · exact ip0
      · exact (hv.pos _ (hl _ hx.1)).2 i
  · intro k hk i j hij
    rcases (F.live k).1 hk with ⟨h1, h2⟩ | ⟨x, hx, rfl⟩
    · rw [F.old k h1 h2]; exact hv.distinct k h1 i j hij
    · have hd := hv.distinct _ (hl _ hx.1) i j hij
      have h1 := ipv _ (hl _ hx.1)
      rw [F.tri x hx]
      unfold Tri.setV
      simp only
      by_cases a : i = x.2 <;> by_cases b : j = x.2
      · exact absurd (a.trans b.symm) hij
      · rw [if_pos a, if_neg b]; exact fun c => h1 j c.symm
      · rw [if_neg a, if_pos b]; exact h1 i
      · rw [if_neg a, if_neg b]; exact hd
  · intro h h' hk e
    rcases (F.live h.1).1 hk with ⟨h1, h2⟩ | ⟨x, hx, hxe⟩
    · by_cases c : ∃ y, M.adj h = some y ∧ y.1 ∈ l
      · obtain ⟨y, e1, e2⟩ := c
        obtain ⟨q1, q2, q3, q4⟩ := hv.link h y h1 e1
        have hy : Ext M l y := ⟨e2, fun z hz => by rw [q2] at hz; cases hz; exact h2⟩
        rw [F.back y hy h q2] at e
        cases e
        refine ⟨(F.live _).2 (Or.inr ⟨y, hy, rfl⟩), ?_, ?_, ?_⟩
        · rw [F.ext y hy]; exact q2
        · rw [(newE y hy).1, (oldE h h1 h2).2]; exact q3
        · rw [(newE y hy).2, (oldE h h1 h2).1]; exact q4
      · push Not at c
        rw [F.keep h h1 h2 c] at e
        obtain ⟨q1, q2, q3, q4⟩ := hv.link h h' h1 e
        have hn := c h' e
        refine ⟨(F.live _).2 (Or.inl ⟨q1, hn⟩), ?_, ?_, ?_⟩
        · rw [F.keep h' q1 hn (fun y hy => by rw [q2] at hy; cases hy; exact h2)]; exact q2
        · rw [(oldE h' q1 hn).1, (oldE h h1 h2).2]; exact q3
        · rw [(oldE h' q1 hn).2, (oldE h h1 h2).1]; exact q4
    · obtain ⟨k, j⟩ := h
      simp only at hxe
      subst hxe
      rcases (f3 x.2).2.2.2.2.2.2.2 j with r | r | r
      · rw [r] at e ⊢
        rw [F.ext x hx] at e
        obtain ⟨p1, p2, p3, p4, p5⟩ := tgt x hx h' e
        refine ⟨(F.live _).2 (Or.inl ⟨p1, p3⟩), F.back x hx h' e, ?_, ?_⟩
        · rw [(oldE h' p1 p3).1, (newE x hx).2]; exact p4
        · rw [(oldE h' p1 p3).2, (newE x hx).1]; exact p5
      · obtain ⟨y, hy, hyo⟩ := (border_next hv hl hx).1
        have s1 : Spoke M l (x, x.2 + 1) := ⟨hx, (f3 x.2).1⟩
        have s2 : Spoke M l (y, y.2 + 2) := ⟨hy, (f3 y.2).2.1⟩
        have v1 : vert M (x, x.2 + 1) = M.dst x := by unfold vert; exact if_pos rfl
        have v2 : vert M (y, y.2 + 2) = M.org y := by unfold vert; exact if_neg fun c => (f3 y.2).2.2.1 c.symm
        have ne : (x, x.2 + 1) ≠ (y, y.2 + 2) := by
          intro c
          have := (Prod.mk.inj c).1
          subst this
          exact odne x hx hyo
        have hv' : vert M (x, x.2 + 1) = vert M (y, y.2 + 2) := by rw [v1, v2, hyo]
        rw [r] at e ⊢
        rw [F.spoke _ _ s1 s2 ne hv'] at e
        cases e
        refine ⟨(F.live _).2 (Or.inr ⟨y, hy, rfl⟩), F.spoke _ _ s2 s1 ne.symm hv'.symm, ?_, ?_⟩
        · rw [(newS2 y hy).1, (newS1 x hx).2]
        · rw [(newS2 y hy).2, (newS1 x hx).1]; exact hyo
      · obtain ⟨y, hy, hyo⟩ := (border_next hv hl hx).2
        have s1 : Spoke M l (x, x.2 + 2) := ⟨hx, (f3 x.2).2.1⟩
        have s2 : Spoke M l (y, y.2 + 1) := ⟨hy, (f3 y.2).1⟩
        have v1 : vert M (x, x.2 + 2) = M.org x := by unfold vert; exact if_neg fun c => (f3 x.2).2.2.1 c.symm
        have v2 : vert M (y, y.2 + 1) = M.dst y := by unfold vert; exact if_pos rfl
        have ne : (x, x.2 + 2) ≠ (y, y.2 + 1) := by
          intro c
          have := (Prod.mk.inj c).1
          subst this
          exact odne x hx hyo.symm
        have hv' : vert M (x, x.2 + 2) = vert M (y, y.2 + 1) := by rw [v1, v2, hyo]
        rw [r] at e ⊢
        rw [F.spoke _ _ s1 s2 ne hv'] at e
        cases e
        refine ⟨(F.live _).2 (Or.inr ⟨y, hy, rfl⟩), F.spoke _ _ s2 s1 ne.symm hv'.symm, ?_, ?_⟩
        · rw [(newS1 y hy).1, (newS2 x hx).2]; exact hyo
        · rw [(newS1 y hy).2, (newS2 x hx).1]

section
variable {K : Type} [Field K] [LinearOrder K] [IsStrictOrderedRing K] {cx cy : Nat → K}

/-- The point has crossing number 1 for a triangle: it is inside, or on the half of the border that counts. -/
def Cov (cx cy : Nat → K) (M : Mesh) (p : K × K) : Prop := ∃ k, M.live k ∧ triCirc (wv cx cy p) (M.tri k) = 1

/-- Crossing number of the triangle over `x`. -/
def fw (cx cy : Nat → K) (M : Mesh) (ip : Nat) (p : K × K) (x : HE) : Int :=
  wv cx cy p (M.org x) (M.dst x) + wv cx cy p (M.dst x) ip + wv cx cy p ip (M.org x)

theorem fw01 {p : K × K} {x : HE} (h : 0 < area cx cy (M.org x) (M.dst x) ip) :
    (fw cx cy M ip p x = 0 ∨ (fw cx cy M ip p x = 1 ∧
      InC (cx (M.org x), cy (M.org x)) (cx (M.dst x), cy (M.dst x)) (cx ip, cy ip) p)) ∧
    (In (cx (M.org x), cy (M.org x)) (cx (M.dst x), cy (M.dst x)) (cx ip, cy ip) p → fw cx cy M ip p x = 1) := by
  have := tri_wn p (area_pos h)
  exact ⟨this.1.imp_right fun q => ⟨q.1, q.2.1.nonneg, q.2.2.1.nonneg, q.2.2.2.nonneg⟩, this.2⟩

omit [IsStrictOrderedRing K] in
theorem Fan.corner (F : Fan M M' ip l N) {R : Nat → Nat → Nat → Prop} (hR : ∀ a b c, R a b c → R b c a) {x : HE} (hx : Ext M l x) :
    R ((M'.tri (N x)).v 0) ((M'.tri (N x)).v 1) ((M'.tri (N x)).v 2) ↔ R (M.org x) (M.dst x) ip := by
  rw [rot3 hR (M'.tri (N x)).v x.2, F.tri x hx]
  obtain ⟨h0, h1, h2⟩ := setV_v (M.tri x.1) x.2 ip
  rw [h0, h1, h2]
  exact Iff.rfl

theorem Fan.planar (F : Fan M M' ip l N) (hv : Valid M) (hp : Planar cx cy M) (hl : ∀ k ∈ l, M.live k)
    (ha : ∀ x, Ext M l x → 0 < area cx cy (M.org x) (M.dst x) ip) :
    Planar cx cy M' ∧ (∀ p k, M.live k → InT cx cy M k p → ∃ k', M'.live k' ∧ InCT cx cy M' k' p) ∧
    ∀ p k, M'.live k → InT cx cy M' k p → ∃ k', M.live k' ∧ InCT cx cy M k' p := by
  have inN : ∀ x, Ext M l x → ∀ p, InT cx cy M' (N x) p → In (cx (M.org x), cy (M.org x)) (cx (M.dst x), cy (M.dst x)) (cx ip, cy ip) p := by
    intro x hx p h
    exact (F.corner (R := fun a b c => In (cx a, cy a) (cx b, cy b) (cx c, cy c) p) (fun a b c h => ⟨h.2.1, h.2.2, h.1⟩) hx).1 h
  have incN : ∀ x, Ext M l x → ∀ p, InC (cx (M.org x), cy (M.org x)) (cx (M.dst x), cy (M.dst x)) (cx ip, cy ip) p → InCT cx cy M' (N x) p := by
    intro x hx p h
    exact (F.corner (R := fun a b c => InC (cx a, cy a) (cx b, cy b) (cx c, cy c) p) (fun a b c h => ⟨h.2.1, h.2.2, h.1⟩) hx).2 h
  have oldT : ∀ k, M.live k → k ∉ l → ∀ p, InT cx cy M' k p ↔ InT cx cy M k p := by
    intro k h1 h2 p; unfold InT; rw [F.old k h1 h2]
  have hsum : ∀ p, ∑ x ∈ border M l, fw cx cy M ip p x = ∑ k ∈ l.toFinset, triCirc (wv cx cy p) (M.tri k) :=
    fun p => fan_sum hv hl (wv_anti (cx := cx) (cy := cy) p) ip
  have f0 : ∀ p, ∀ x ∈ border M l, 0 ≤ fw cx cy M ip p x := by
    intro p x hx
    rcases (fw01 (p := p) (ha x (mem_border.1 hx))).1 with r | r
    · rw [r]
    · rw [r.1]; decide
  have hlS : ∀ k ∈ l.toFinset, M.live k := fun k hk => hl k (List.mem_toFinset.1 hk)
  have t0 : ∀ p, ∀ k ∈ l.toFinset, 0 ≤ triCirc (wv cx cy p) (M.tri k) := by
    intro p k hk
    rcases (hp.w01 (hlS k hk) p).1 with r | r
    · rw [r]
    · rw [r.1]; decide
  -- a point in a new triangle comes from one of the cavity
  have down : ∀ x, Ext M l x → ∀ p, InT cx cy M' (N x) p → ∃ k ∈ l, triCirc (wv cx cy p) (M.tri k) = 1 ∧ InCT cx cy M k p := by
    intro x hx p h
    have e := (fw01 (p := p) (ha x hx)).2 (inN x hx p h)
    have h1 := Finset.single_le_sum (f0 p) (mem_border.2 hx)
    rw [hsum, e] at h1
    by_contra c
    push Not at c
    have : ∑ k ∈ l.toFinset, triCirc (wv cx cy p) (M.tri k) = 0 := by
      apply Finset.sum_eq_zero
      intro k hk
      exact (hp.w01 (hlS k hk) p).1.resolve_right fun q => c k (List.mem_toFinset.1 hk) q.1 q.2
    rw [this] at h1
    omega
  refine ⟨⟨?_, ?_⟩, ?_, ?_⟩
  · intro k hk
    rcases (F.live k).1 hk with ⟨h1, h2⟩ | ⟨x, hx, rfl⟩
    · rw [F.old k h1 h2]; exact hp.pos k h1
    · refine (F.corner (R := fun a b c => 0 < area cx cy a b c) ?_ hx).2 (ha x hx)
      intro a b c h
      have e : area cx cy b c a = area cx cy a b c := by unfold area; ring
      rw [e]; exact h
  · have mixed : ∀ k x p, M.live k → k ∉ l → Ext M l x → InT cx cy M' k p → InT cx cy M' (N x) p → False := by
      intro k x p h1 h2 hx ik ix
      obtain ⟨k1, m1, e1, _⟩ := down x hx p ix
      have e := (hp.w01 h1 p).2 ((oldT k h1 h2 p).1 ik)
      obtain ⟨q, q1, q2⟩ := common (area_pos (hp.pos k h1)) (area_pos (hp.pos k1 (hl _ m1))) e e1
      have := hp.disj k k1 q h1 (hl _ m1) q1 q2
      exact h2 (this ▸ m1)
    intro k k' p hk hk' ik ik'
    rcases (F.live k).1 hk with ⟨h1, h2⟩ | ⟨x, hx, rfl⟩ <;> rcases (F.live k').1 hk' with ⟨h1', h2'⟩ | ⟨x', hx', rfl⟩
    · exact hp.disj k k' p h1 h1' ((oldT k h1 h2 p).1 ik) ((oldT k' h1' h2' p).1 ik')
    · exact (mixed k x' p h1 h2 hx' ik ik').elim
    · exact (mixed k' x p h1' h2' hx ik' ik).elim
    · by_contra hne
      have hxx : x ≠ x' := fun c => hne (by rw [c])
      have hle := (hp.sum_le hlS p).2
      rw [← hsum] at hle
      have h2 := Finset.sum_le_sum_of_subset_of_nonneg (s := {x, x'}) (t := border M l) (f := fw cx cy M ip p) (by
          intro z hz
          simp only [Finset.mem_insert, Finset.mem_singleton] at hz
          rcases hz with rfl | rfl
          · exact mem_border.2 hx
          · exact mem_border.2 hx') (fun z hz _ => f0 p z hz)
      rw [Finset.sum_pair hxx, (fw01 (ha x hx)).2 (inN x hx p ik), (fw01 (ha x' hx')).2 (inN x' hx' p ik')] at h2
      omega
  · intro p k hk ik
    by_cases c : k ∈ l
    · have e := (hp.w01 hk p).2 ik
      have h1 := Finset.single_le_sum (t0 p) (List.mem_toFinset.2 c)
      rw [← hsum, e] at h1
      by_contra hc
      push Not at hc
      have : ∑ x ∈ border M l, fw cx cy M ip p x = 0 := by
        apply Finset.sum_eq_zero
        intro x hx
        have hx := mem_border.1 hx
        exact (fw01 (ha x hx)).1.resolve_right fun q => hc (N x) ((F.live _).2 (Or.inr ⟨x, hx, rfl⟩)) (incN x hx p q.2)
      rw [this] at h1
      omega
    · refine ⟨k, (F.live k).2 (Or.inl ⟨hk, c⟩), ?_⟩
      unfold InCT
      rw [F.old k hk c]
      exact ⟨ik.1.le, ik.2.1.le, ik.2.2.le⟩
  · intro p k hk ik
    rcases (F.live k).1 hk with ⟨h1, h2⟩ | ⟨x, hx, rfl⟩
    · refine ⟨k, h1, ?_⟩
      have := (oldT k h1 h2 p).1 ik
      exact ⟨this.1.le, this.2.1.le, this.2.2.le⟩
    · obtain ⟨k1, m1, _, q⟩ := down x hx p ik
      exact ⟨k1, hl _ m1, q⟩

theorem Planar.in_cov (hp : Planar cx cy M) {k : Nat} (hk : M.live k) {p : K × K} (h : InT cx cy M k p) : Cov cx cy M p :=
  ⟨k, hk, (hp.w01 hk p).2 h⟩

theorem Planar.cov_in (hp : Planar cx cy M) {p : K × K} (h : Cov cx cy M p) : ∃ k, M.live k ∧ InCT cx cy M k p := by
  obtain ⟨k, hk, e⟩ := h
  refine ⟨k, hk, ?_⟩
  rcases (hp.w01 hk p).1 with r | r
  · omega
  · exact r.2

theorem Fan.cov (F : Fan M M' ip l N) (hv : Valid M) (hp : Planar cx cy M) (hl : ∀ k ∈ l, M.live k)
    (ha : ∀ x, Ext M l x → 0 < area cx cy (M.org x) (M.dst x) ip) (p : K × K) : Cov cx cy M p ↔ Cov cx cy M' p := by
  have hN : ∀ x, Ext M l x → triCirc (wv cx cy p) (M'.tri (N x)) = fw cx cy M ip p x := by
    intro x hx
    rw [triCirc_rot _ _ (x.2 + 1), F.tri x hx]
    obtain ⟨h0, h1, h2⟩ := setV_v (M.tri x.1) x.2 ip
    obtain ⟨_, _, _, i3, i4, _⟩ := f3 x.2
    rw [i3, i4, h0, h1, h2]
    rfl
  have hsum : ∑ x ∈ border M l, fw cx cy M ip p x = ∑ k ∈ l.toFinset, triCirc (wv cx cy p) (M.tri k) :=
    fan_sum hv hl (wv_anti (cx := cx) (cy := cy) p) ip
  have f0 : ∀ x ∈ border M l, 0 ≤ fw cx cy M ip p x := by
    intro x hx
    rcases (fw01 (p := p) (ha x (mem_border.1 hx))).1 with r | r
    · rw [r]
    · rw [r.1]; decide
  have hlS : ∀ k ∈ l.toFinset, M.live k := fun k hk => hl k (List.mem_toFinset.1 hk)
  have t0 : ∀ k ∈ l.toFinset, 0 ≤ triCirc (wv cx cy p) (M.tri k) := by
    intro k hk
    rcases (hp.w01 (hlS k hk) p).1 with r | r
    · rw [r]
    · rw [r.1]; decide
  constructor
  · rintro ⟨k, hk, e⟩
    by_cases c : k ∈ l
    · have h1 := Finset.single_le_sum t0 (List.mem_toFinset.2 c)
      rw [← hsum, e] at h1
      by_contra hc
      have : ∑ x ∈ border M l, fw cx cy M ip p x = 0 := by
        apply Finset.sum_eq_zero
        intro x hx
        have hx := mem_border.1 hx
        exact (fw01 (ha x hx)).1.resolve_right fun q => hc ⟨N x, (F.live _).2 (Or.inr ⟨x, hx, rfl⟩), by rw [hN x hx]; exact q.1⟩
      rw [this] at h1
      omega
    · exact ⟨k, (F.live k).2 (Or.inl ⟨hk, c⟩), by rw [F.old k hk c]; exact e⟩
  · rintro ⟨k, hk, e⟩
    rcases (F.live k).1 hk with ⟨h1, h2⟩ | ⟨x, hx, rfl⟩
    · exact ⟨k, h1, by rw [F.old k h1 h2] at e; exact e⟩
    · rw [hN x hx] at e
      have h1 := Finset.single_le_sum f0 (mem_border.2 hx)
      rw [hsum, e] at h1
      by_contra hc
      have : ∑ k ∈ l.toFinset, triCirc (wv cx cy p) (M.tri k) = 0 := by
        apply Finset.sum_eq_zero
        intro k hk
        exact (hp.w01 (hlS k hk) p).1.resolve_right fun q => hc ⟨k, hlS k hk, q.1⟩
      rw [this] at h1
      omega

end
end

/-! ### Property C91 -/

section
variable {K : Type} [Field K] [LinearOrder K] [IsStrictOrderedRing K]

/-- What is given with a vertex that is to be inserted: it starts from a valid triangle, it is not yet used, the numbers for the new
triangles are unused and different, the marks are old. -/
structure Fresh (lmax : Nat) (new mark : Nat → Nat) (base ip k0 : Nat) (M : Mesh) : Prop where
  start : M.live k0
  ip0 : ip ≠ 0
  ipv : ∀ k, M.live k → ∀ i, (M.tri k).v i ≠ ip
  free : ∀ j, j < 3 * lmax → new j ≠ 0 ∧ ¬ M.live (new j)
  inj : ∀ i j, i < 3 * lmax → j < 3 * lmax → new i = new j → i = j
  mark : ∀ k, mark k < base

/-- And the mesh is a triangulation without overlaps. -/
structure Ready (cx cy : Nat → K) (lmax : Nat) (new mark : Nat → Nat) (base ip k0 : Nat) (M : Mesh) : Prop
    extends Fresh lmax new mark base ip k0 M where
  valid : Valid M
  planar : Planar cx cy M

variable {cx cy : Nat → K} {amin : K} {lmax : Nat} {circle : Nat → Bool} {g : Option Nat} {room : Bool}
  {new mark : Nat → Nat} {base ip k0 : Nat} {M : Mesh}

/-- The cavity: different valid triangles, all of the sub-domain of the start, all of them the start or accepted by the circle test,
short enough for the list of the caller, and each of its sides sees the vertex on the inner side with an area of at least the
threshold. -/
theorem C91_cavity (R : Ready cx cy lmax new mark base ip k0 M) (hl : 4 ≤ lmax) {r : (Nat → Nat) × List Nat}
    (h : cavity cx cy amin circle lmax M mark base ip k0 = some r) :
    r.2.Nodup ∧ r.2.length + 3 ≤ lmax ∧
    (∀ k ∈ r.2, M.live k ∧ (M.tri k).ref = (M.tri k0).ref ∧ (k = k0 ∨ circle k = true)) ∧
    ∀ k ∈ r.2, ∀ i, (∀ y, M.adj (k, i) = some y → y.1 ∉ r.2) → amin ≤ area cx cy (M.org (k, i)) (M.dst (k, i)) ip := by
  obtain ⟨C, c, n, a⟩ := cavity_spec R.valid R.mark R.start h hl
  exact ⟨C.nd, n, fun k hk => ⟨C.live k hk, C.ref k hk, c k hk⟩, fun k hk i hy => a (k, i) ⟨hk, hy⟩⟩

theorem sit_of (R : Ready cx cy lmax new mark base ip k0 M) (hl : 4 ≤ lmax) (ha : 0 < amin) {mark' : Nat → Nat} {l : List Nat}
    (h : cavity cx cy amin circle lmax M mark base ip k0 = some (mark', l)) (hn : (extSides M mark' base l).length < 3 * lmax) :
    Sit M mark' base ip (M.tri k0).ref l new ∧ ∀ x, Ext M l x → 0 < area cx cy (M.org x) (M.dst x) ip := by
  obtain ⟨C, c, n, a⟩ := cavity_spec R.valid R.mark R.start h hl
  simp only at C c n a
  have ha' : ∀ x, Ext M l x → 0 < area cx cy (M.org x) (M.dst x) ip := fun x hx => lt_of_lt_of_le ha (a x hx)
  exact ⟨⟨R.valid, C, R.ip0, R.ipv, fun j hj => R.free j (by omega), fun i j hi hj => R.inj i j (by omega) (by omega),
    fun x y hx hy e => border_simple R.valid R.planar C.live ha' hx hy e⟩, ha'⟩

/-- What the function can answer: it never reads outside of the table of edges; it runs out of memory only when the allocator says so;
it refuses only when a vertex would be lost or when there would be too many new triangles. -/
theorem C91_answers (R : Ready cx cy lmax new mark base ip k0 M) (hl : 4 ≤ lmax) (ha : 0 < amin) (hg : ∀ n, g = some n → 1 ≤ n)
    {mark' : Nat → Nat} {l : List Nat} (h : cavity cx cy amin circle lmax M mark base ip k0 = some (mark', l)) :
    (delone lmax g room new base ip l M mark' = .refused ∧
      ((∃ k ∈ l, ∃ i, ∀ x, Ext M l x → M.org x ≠ (M.tri k).v i ∧ M.dst x ≠ (M.tri k).v i) ∨
        3 * lmax ≤ (extSides M mark' base l).length)) ∨
    (delone lmax g room new base ip l M mark' = .nomem true ∧ room = false) ∨
    (delone lmax g room new base ip l M mark' = .nomem false ∧ g = none) ∨
    ∃ M' mk n, delone lmax g room new base ip l M mark' = .done M' mk n := by
  obtain ⟨C, -, -, -⟩ := cavity_spec R.valid R.mark R.start h hl
  simp only at C
  unfold delone
  simp only
  by_cases c1 : isolated M mark' base l = true
  · left
    rw [if_pos c1]
    refine ⟨rfl, Or.inl ?_⟩
    unfold isolated at c1
    simp only [List.any_eq_true, Bool.not_eq_true'] at c1
    obtain ⟨k, hk, i, _, hx⟩ := c1
    refine ⟨k, hk, i, fun x hx' => ?_⟩
    rw [List.any_eq_false] at hx
    have := hx x ((mem_extSides C.mark).2 hx')
    simpa using this
  rw [if_neg c1]
  by_cases c2 : 3 * lmax ≤ (extSides M mark' base l).length
  · left; rw [if_pos c2]; exact ⟨rfl, Or.inr c2⟩
  rw [if_neg c2]
  cases room with
  | false => right; left; exact ⟨by simp, rfl⟩
  | true =>
    simp only [Bool.not_true, Bool.false_eq_true, if_false]
    obtain ⟨S, -⟩ := sit_of R hl ha h (by omega)
    rcases S.trias (g := g) hg l [] ⟨M, mark', hashNew _ (3 * _), 0⟩ (by simp) (fun _ h => h) (dinv0 _ _) with ⟨e, q⟩ | ⟨a, e, _⟩
    · right; right; left; rw [e]; exact ⟨rfl, q⟩
    · right; right; right; rw [e]; exact ⟨_, _, _, rfl⟩

theorem done_fan (R : Ready cx cy lmax new mark base ip k0 M) (hl : 4 ≤ lmax) (ha : 0 < amin) (hg : ∀ n, g = some n → 1 ≤ n)
    {mark' : Nat → Nat} {l : List Nat} (h : cavity cx cy amin circle lmax M mark base ip k0 = some (mark', l))
    {M' : Mesh} {mk : Nat → Nat} {n : Nat} (hd : delone lmax g room new base ip l M mark' = .done M' mk n) :
    Fan M M' ip l (num (extSides M mark' base l) new) ∧ Sit M mark' base ip (M.tri k0).ref l new ∧
    (∀ x, Ext M l x → 0 < area cx cy (M.org x) (M.dst x) ip) ∧ n = (extSides M mark' base l).length ∧
    ∀ k ∈ l, ∀ i, ∃ x, Ext M l x ∧ (M.org x = (M.tri k).v i ∨ M.dst x = (M.tri k).v i) := by
  obtain ⟨C, -, -, -⟩ := cavity_spec R.valid R.mark R.start h hl
  simp only at C
  unfold delone at hd
  simp only at hd
  split at hd
  · cases hd
  rename_i c1
  split at hd
  · cases hd
  rename_i c2
  split at hd
  · cases hd
  obtain ⟨S, ha'⟩ := sit_of R hl ha h (by omega)
  rcases S.trias (g := g) hg l [] ⟨M, mark', hashNew (extSides M mark' base l).length (3 * (extSides M mark' base l).length), 0⟩
    (by simp) (fun _ h => h) (dinv0 _ _) with ⟨e, q⟩ | ⟨a, e, D⟩
  · rw [e] at hd; cases hd
  · rw [e] at hd
    cases hd
    refine ⟨S.fan D, S, ha', D.n, ?_⟩
    intro k hk i
    by_contra c
    push Not at c
    apply c1
    unfold isolated
    rw [List.any_eq_true]
    refine ⟨k, hk, ?_⟩
    rw [List.any_eq_true]
    refine ⟨i, (by decide : ∀ i : Fin 3, i ∈ [0, 1, 2]) i, ?_⟩
    rw [Bool.not_eq_true', List.any_eq_false]
    intro x hx
    have := c x (S.mem.1 hx)
    simpa using this

/-- After a successful insertion: the mesh is a triangulation without overlaps again, it covers the same part of the plane, its
vertices are the old ones and the new one, the triangles outside of the cavity are as before, and the cavity is replaced by one
triangle for each of its sides, made of this side (with its tag, its reference and its neighbour) and the vertex, in the same
sub-domain. -/
theorem C91_insert (R : Ready cx cy lmax new mark base ip k0 M) (hl : 4 ≤ lmax) (ha : 0 < amin) (hg : ∀ n, g = some n → 1 ≤ n)
    {mark' : Nat → Nat} {l : List Nat} (h : cavity cx cy amin circle lmax M mark base ip k0 = some (mark', l)) (hne : l ≠ [])
    {M' : Mesh} {mk : Nat → Nat} {n : Nat} (hd : delone lmax g room new base ip l M mark' = .done M' mk n) :
    Valid M' ∧ Planar cx cy M' ∧
    ((∀ p k, M.live k → InT cx cy M k p → ∃ k', M'.live k' ∧ InCT cx cy M' k' p) ∧
      ∀ p k, M'.live k → InT cx cy M' k p → ∃ k', M.live k' ∧ InCT cx cy M k' p) ∧
    (∀ v, (∃ k i, M'.live k ∧ (M'.tri k).v i = v) ↔ v = ip ∨ ∃ k i, M.live k ∧ (M.tri k).v i = v) ∧
    (∀ k, M.live k → k ∉ l → M'.live k ∧ M'.tri k = M.tri k) ∧
    (∀ k ∈ l, ¬ M'.live k) ∧
    ∃ N : HE → Nat,
      (∀ k, M'.live k ↔ (M.live k ∧ k ∉ l) ∨ ∃ x, (x.1 ∈ l ∧ ∀ y, M.adj x = some y → y.1 ∉ l) ∧ k = N x) ∧
      (∀ x y, (x.1 ∈ l ∧ ∀ y, M.adj x = some y → y.1 ∉ l) → (y.1 ∈ l ∧ ∀ z, M.adj y = some z → z.1 ∉ l) → N x = N y → x = y) ∧
      ∀ x, (x.1 ∈ l ∧ ∀ y, M.adj x = some y → y.1 ∉ l) →
        ¬ M.live (N x) ∧ M'.org (N x, x.2) = M.org x ∧ M'.dst (N x, x.2) = M.dst x ∧ (M'.tri (N x)).v x.2 = ip ∧
        (M'.tri (N x)).tag x.2 = (M.tri x.1).tag x.2 ∧ (M'.tri (N x)).edg x.2 = (M.tri x.1).edg x.2 ∧
        (M'.tri (N x)).ref = (M.tri k0).ref ∧ M'.adj (N x, x.2) = M.adj x := by
  obtain ⟨F, S, ha', -, hiso⟩ := done_fan R hl ha hg h hd
  have hli := S.cav.live
  obtain ⟨hP, hR⟩ := F.planar R.valid R.planar hli ha'
  refine ⟨F.valid R.valid hli R.ip0 R.ipv, hP, hR, ?_, ?_, ?_, _, F.live, F.inj, ?_⟩
  · intro v
    constructor
    · rintro ⟨k, i, hk, rfl⟩
      rcases (F.live k).1 hk with ⟨h1, h2⟩ | ⟨x, hx, rfl⟩
      · right; exact ⟨k, i, h1, by rw [F.old k h1 h2]⟩
      · rw [F.tri x hx]
        unfold Tri.setV
        simp only
        split
        · left; rfl
        · right; exact ⟨x.1, i, hli _ hx.1, rfl⟩
    · have sides : ∀ x, Ext M l x → ∀ v, v = ip ∨ M.org x = v ∨ M.dst x = v → ∃ k i, M'.live k ∧ (M'.tri k).v i = v := by
        intro x hx v hv
        have hlv := (F.live _).2 (Or.inr ⟨x, hx, rfl⟩)
        obtain ⟨h0, h1, h2⟩ := setV_v (M.tri x.1) x.2 ip
        rcases hv with rfl | rfl | rfl
        · exact ⟨_, x.2, hlv, by rw [F.tri x hx]; exact h0⟩
        · exact ⟨_, x.2 + 1, hlv, by rw [F.tri x hx]; exact h1⟩
        · exact ⟨_, x.2 + 2, hlv, by rw [F.tri x hx]; exact h2⟩
      rintro (rfl | ⟨k, i, hk, rfl⟩)
      · obtain ⟨k, hk⟩ := List.exists_mem_of_ne_nil l hne
        obtain ⟨x, hx, _⟩ := hiso k hk 0
        exact sides x hx _ (Or.inl rfl)
      · by_cases c : k ∈ l
        · obtain ⟨x, hx, e⟩ := hiso k c i
          exact sides x hx _ (Or.inr e)
        · exact ⟨k, i, (F.live k).2 (Or.inl ⟨hk, c⟩), by rw [F.old k hk c]⟩
  · intro k h1 h2
    exact ⟨(F.live k).2 (Or.inl ⟨h1, h2⟩), F.old k h1 h2⟩
  · intro k hk c
    rcases (F.live k).1 c with ⟨_, h2⟩ | ⟨x, hx, rfl⟩
    · exact h2 hk
    · exact (F.free x hx).2 (hli _ hk)
  · intro x hx
    obtain ⟨h0, h1, h2⟩ := setV_v (M.tri x.1) x.2 ip
    unfold Mesh.org Mesh.dst
    simp only
    rw [F.tri x hx]
    exact ⟨(F.free x hx).2, h1, h2, h0, rfl, rfl, S.cav.ref _ hx.1, F.ext x hx⟩

theorem turn_spec (R : Ready cx cy lmax new mark base ip k0 M) (hl : 4 ≤ lmax) (ha : 0 < amin) (hg : ∀ n, g = some n → 1 ≤ n)
    {M' : Mesh} {b : Bool} (h : turn cx cy amin lmax circle g room new mark base ip k0 M = some (M', b)) :
    (b = false → M' = M) ∧ (b = true → room = true → ∃ k i, M'.live k ∧ (M'.tri k).v i = ip) ∧
    Valid M' ∧ Planar cx cy M' ∧ (∀ p, Cov cx cy M p ↔ Cov cx cy M' p) ∧
    ∀ k i, M.live k → ∃ k' i', M'.live k' ∧ (M'.tri k').v i' = (M.tri k).v i := by
  have same : Valid M ∧ Planar cx cy M ∧ (∀ p, Cov cx cy M p ↔ Cov cx cy M p) ∧
      ∀ k i, M.live k → ∃ k' i', M.live k' ∧ (M.tri k').v i' = (M.tri k).v i :=
    ⟨R.valid, R.planar, fun _ => Iff.rfl, fun k i hk => ⟨k, i, hk, rfl⟩⟩
  unfold turn at h
  split at h
  · cases h; exact ⟨fun _ => rfl, fun c => by simp at c, same⟩
  rename_i mark' l hc
  split at h
  · cases h; exact ⟨fun _ => rfl, fun c => by simp at c, same⟩
  rename_i hne
  have A := C91_answers (g := g) (room := room) R hl ha hg hc
  split at h
  · cases h; exact ⟨fun _ => rfl, fun c => by simp at c, same⟩
  · rename_i e
    cases h
    refine ⟨fun _ => rfl, fun _ c => ?_, same⟩
    rw [e] at A
    rcases A with ⟨c', _⟩ | ⟨_, c'⟩ | ⟨c', _⟩ | ⟨_, _, _, c'⟩
    · cases c'
    · rw [c] at c'; cases c'
    · cases c'
    · cases c'
  · cases h
  · cases h
  · rename_i M1 mk n e
    cases h
    obtain ⟨F, S, ha', -, hiso⟩ := done_fan R hl ha hg hc e
    obtain ⟨v, p, r, w, -⟩ := C91_insert R hl ha hg hc hne e
    refine ⟨fun c => by simp at c, fun _ _ => (w ip).2 (Or.inl rfl), v, p, F.cov R.valid R.planar S.cav.live ha', ?_⟩
    intro k i hk
    exact (w _).2 (Or.inr ⟨k, i, hk, rfl⟩)

/-- One turn of the loop of insertions: a vertex that is not counted leaves the mesh as it was; one that is counted is in the mesh
afterwards when memory was not lacking.  In each case the mesh stays a triangulation without overlaps of the same part of the plane,
and no vertex is lost. -/
theorem C91_turn (R : Ready cx cy lmax new mark base ip k0 M) (hl : 4 ≤ lmax) (ha : 0 < amin) (hg : ∀ n, g = some n → 1 ≤ n)
    {M' : Mesh} {b : Bool} (h : turn cx cy amin lmax circle g room new mark base ip k0 M = some (M', b)) :
    (b = false → M' = M) ∧ (b = true → room = true → ∃ k i, M'.live k ∧ (M'.tri k).v i = ip) ∧
    Valid M' ∧ Planar cx cy M' ∧
    (∀ k i, M.live k → ∃ k' i', M'.live k' ∧ (M'.tri k').v i' = (M.tri k).v i) ∧
    (∀ p k, M.live k → InT cx cy M k p → ∃ k', M'.live k' ∧ InCT cx cy M' k' p) ∧
    ∀ p k, M'.live k → InT cx cy M' k p → ∃ k', M.live k' ∧ InCT cx cy M k' p := by
  obtain ⟨h1, h2, v, p, c, w⟩ := turn_spec R hl ha hg h
  exact ⟨h1, h2, v, p, w, fun q k hk ik => p.cov_in ((c q).1 (R.planar.in_cov hk ik)),
    fun q k hk ik => R.planar.cov_in ((c q).2 (p.in_cov hk ik))⟩

/-- The choices of one turn. -/
structure Env where
  circle : Nat → Bool
  g : Option Nat
  room : Bool
  new : Nat → Nat
  mark : Nat → Nat
  base : Nat
  ip : Nat
  k0 : Nat

/-- Any number of turns. -/
def run (cx cy : Nat → K) (amin : K) (lmax : Nat) : List Env → Mesh → Option Mesh
  | [], M => some M
  | e :: es, M =>
    match turn cx cy amin lmax e.circle e.g e.room e.new e.mark e.base e.ip e.k0 M with
    | none => none
    | some (M', _) => run cx cy amin lmax es M'

/-- The choices fit to the meshes they meet. -/
def Fits (cx cy : Nat → K) (amin : K) (lmax : Nat) : List Env → Mesh → Prop
  | [], _ => True
  | e :: es, M => Fresh lmax e.new e.mark e.base e.ip e.k0 M ∧ (∀ n, e.g = some n → 1 ≤ n) ∧
    ∀ M' b, turn cx cy amin lmax e.circle e.g e.room e.new e.mark e.base e.ip e.k0 M = some (M', b) → Fits cx cy amin lmax es M'

/-- After any number of insertions the mesh is a triangulation without overlaps, no vertex is lost, and the same part of the plane is
covered: a point strictly inside of a triangle before is in a triangle after, and conversely. -/
theorem C91_history (hl : 4 ≤ lmax) (ha : 0 < amin) : ∀ (es : List Env) (M M' : Mesh), Valid M → Planar cx cy M →
    Fits cx cy amin lmax es M → run cx cy amin lmax es M = some M' →
    Valid M' ∧ Planar cx cy M' ∧
    (∀ k i, M.live k → ∃ k' i', M'.live k' ∧ (M'.tri k').v i' = (M.tri k).v i) ∧
    (∀ p k, M.live k → InT cx cy M k p → ∃ k', M'.live k' ∧ InCT cx cy M' k' p) ∧
    ∀ p k, M'.live k → InT cx cy M' k p → ∃ k', M.live k' ∧ InCT cx cy M k' p := by
  have main : ∀ (es : List Env) (M M' : Mesh), Valid M → Planar cx cy M → Fits cx cy amin lmax es M → run cx cy amin lmax es M = some M' →
      Valid M' ∧ Planar cx cy M' ∧ (∀ k i, M.live k → ∃ k' i', M'.live k' ∧ (M'.tri k').v i' = (M.tri k).v i) ∧
      ∀ p, Cov cx cy M p ↔ Cov cx cy M' p := by
    intro es
    induction es with
    | nil =>
      intro M M' hv hp _ h
      cases h
      exact ⟨hv, hp, fun k i hk => ⟨k, i, hk, rfl⟩, fun _ => Iff.rfl⟩
    | cons e es ih =>
      intro M M' hv hp hf h
      unfold run at h
      obtain ⟨f1, f2, f3⟩ := hf
      split at h
      · cases h
      · rename_i M1 b ht
        obtain ⟨-, -, v1, p1, c1, w1⟩ := turn_spec ⟨f1, hv, hp⟩ hl ha f2 ht
        obtain ⟨v2, p2, w2, c2⟩ := ih M1 M' v1 p1 (f3 M1 b ht) h
        refine ⟨v2, p2, ?_, fun p => (c1 p).trans (c2 p)⟩
        intro k i hk
        obtain ⟨k', i', hk', e'⟩ := w1 k i hk
        obtain ⟨k2, i2, hk2, e2⟩ := w2 k' i' hk'
        exact ⟨k2, i2, hk2, e2.trans e'⟩
  intro es M M' hv hp hf h
  obtain ⟨v, p, w, c⟩ := main es M M' hv hp hf h
  exact ⟨v, p, w, fun q k hk ik => p.cov_in ((c q).1 (hp.in_cov hk ik)), fun q k hk ik => hp.cov_in ((c q).2 (p.in_cov hk ik))⟩

end

/-! ### Examples -/

/-- A square of two triangles. -/
def sqx (v : Nat) : Rat := if v = 2 ∨ v = 3 then 4 else if v = 5 then 1 else 0
def sqy (v : Nat) : Rat := if v = 3 ∨ v = 4 then 4 else if v = 5 then 2 else 0
def sqM : Mesh where
  tri k := if k = 1 then ⟨fun i => if i = 0 then 1 else if i = 1 then 2 else 3, fun _ => 0, fun _ => 0, 7⟩
    else if k = 2 then ⟨fun i => if i = 0 then 1 else if i = 1 then 3 else 4, fun _ => 0, fun _ => 0, 7⟩ else ⟨fun _ => 0, fun _ => 0, fun _ => 0, 0⟩
  adj h := if h = (1, 1) then some (2, 2) else if h = (2, 2) then some (1, 1) else none

theorem sq_live {k : Nat} : sqM.live k ↔ k = 1 ∨ k = 2 := by
  unfold Mesh.live sqM
  by_cases c : k = 1
  · simp [c]
  · by_cases c' : k = 2 <;> simp [c, c']

theorem sq_ready : Ready sqx sqy 10 (fun j => 3 + j) (fun _ => 0) 1 5 2 sqM := by
  refine ⟨⟨by rw [sq_live]; simp, by decide, ?_, ?_, ?_, fun _ => by decide⟩, ⟨?_, ?_, ?_⟩, ⟨?_, ?_⟩⟩
  · intro k hk
    rcases sq_live.1 hk with rfl | rfl <;> decide
  · intro j _
    rw [sq_live]; omega
  · intro i j _ _ h
    omega
  · intro k hk
    rcases sq_live.1 hk with rfl | rfl <;> decide
  · intro k hk
    rcases sq_live.1 hk with rfl | rfl <;> decide
  · rintro ⟨k, i⟩ h' hk e
    unfold sqM at e
    simp only at e
    split at e
    · rename_i c; cases e; cases c; exact ⟨sq_live.2 (Or.inr rfl), by decide⟩
    · split at e
      · rename_i c; cases e; cases c; exact ⟨sq_live.2 (Or.inl rfl), by decide⟩
      · cases e
  · intro k hk
    rcases sq_live.1 hk with rfl | rfl <;> decide +kernel
  · intro k k' p hk hk' h h'
    have key : InT sqx sqy sqM 1 p → InT sqx sqy sqM 2 p → False := by
      intro h h'
      have h1 := h.2.2
      have h2 := h'.1
      have e1 : ar (sqx ((sqM.tri 1).v 2), sqy ((sqM.tri 1).v 2)) (sqx ((sqM.tri 1).v 0), sqy ((sqM.tri 1).v 0)) p =
          - ar (sqx ((sqM.tri 2).v 0), sqy ((sqM.tri 2).v 0)) (sqx ((sqM.tri 2).v 1), sqy ((sqM.tri 2).v 1)) p := by
        rw [← ar_swap]; rfl
      rw [e1] at h1
      linarith
    rcases sq_live.1 hk with rfl | rfl <;> rcases sq_live.1 hk' with rfl | rfl
    · rfl
    · exact (key h h').elim
    · exact (key h' h).elim
    · rfl

/-- Corners of the triangles with a number below 8. -/
def corners (M : Mesh) : List (List Nat) := (List.range 8).map fun k => [0, 1, 2].map (M.tri k).v

/-- The square with vertex 5 inside: four triangles. -/
example : (turn sqx sqy 1 10 (fun _ => true) none true (fun j => 3 + j) (fun _ => 0) 1 5 2 sqM).map (fun x => (corners x.1, x.2)) =
    some ([[0, 0, 0], [0, 0, 0], [0, 0, 0], [5, 3, 4], [1, 5, 4], [5, 2, 3], [1, 2, 5], [0, 0, 0]], true) := by decide +kernel

/-- The hypotheses of `C91_cavity`, `C91_answers`, `C91_insert` and `C91_turn` together. -/
example : ∃ mark' l M' mk n, Ready sqx sqy 10 (fun j => 3 + j) (fun _ => 0) 1 5 2 sqM ∧
    cavity sqx sqy 1 (fun _ => true) 10 sqM (fun _ => 0) 1 5 2 = some (mark', l) ∧ l ≠ [] ∧
    delone 10 none true (fun j => 3 + j) 1 5 l sqM mark' = .done M' mk n := by
  have h : ((cavity sqx sqy 1 (fun _ => true) 10 sqM (fun _ => 0) 1 5 2).map fun r => (r.2,
      match delone 10 none true (fun j => 3 + j) 1 5 r.2 sqM r.1 with | .done _ _ n => some n | _ => none)) = some ([2, 1], some 4) := by
    decide +kernel
  cases hc : cavity sqx sqy 1 (fun _ => true) 10 sqM (fun _ => 0) 1 5 2 with
  | none => rw [hc] at h; cases h
  | some r =>
    rw [hc] at h
    simp only [Option.map_some, Option.some.injEq, Prod.mk.injEq] at h
    obtain ⟨h1, h2⟩ := h
    split at h2
    · rename_i M' mk n e
      exact ⟨r.1, r.2, M', mk, n, sq_ready, rfl, by rw [h1]; simp, e⟩
    · cases h2

/-- And of `C91_history`. -/
example : ∃ M', Fits sqx sqy 1 10 [⟨fun _ => true, none, true, fun j => 3 + j, fun _ => 0, 1, 5, 2⟩] sqM ∧
    run sqx sqy 1 10 [⟨fun _ => true, none, true, fun j => 3 + j, fun _ => 0, 1, 5, 2⟩] sqM = some M' := by
  have h : (turn sqx sqy 1 10 (fun _ => true) none true (fun j => 3 + j) (fun _ => 0) 1 5 2 sqM).isSome = true := by decide +kernel
  obtain ⟨⟨M', b⟩, e⟩ := Option.isSome_iff_exists.1 h
  refine ⟨M', ⟨sq_ready.toFresh, by simp, fun _ _ _ => trivial⟩, ?_⟩
  unfold run
  simp only
  rw [e]
  rfl

/-- Where the caller differs from its claim: without memory the function answers -1, and the caller counts the vertex as inserted
although no triangle has it. -/
theorem C91_nomem_observed : ∃ M', turn sqx sqy 1 10 (fun _ => true) none false (fun j => 3 + j) (fun _ => 0) 1 5 2 sqM = some (M', true) ∧
    ∀ k i, M'.live k → (M'.tri k).v i ≠ 5 := by
  have h : (turn sqx sqy 1 10 (fun _ => true) none false (fun j => 3 + j) (fun _ => 0) 1 5 2 sqM).map (fun x => x.2) = some true := by
    decide +kernel
  have hc : ((cavity sqx sqy 1 (fun _ => true) 10 sqM (fun _ => 0) 1 5 2).map fun r =>
      (isolated sqM r.1 1 r.2, (extSides sqM r.1 1 r.2).length, r.2)) = some (false, 4, [2, 1]) := by decide +kernel
  refine ⟨sqM, ?_, fun k i hk => sq_ready.ipv k hk i⟩
  unfold turn
  cases e : cavity sqx sqy 1 (fun _ => true) 10 sqM (fun _ => 0) 1 5 2 with
  | none => rw [e] at hc; cases hc
  | some r =>
    rw [e] at hc
    simp only [Option.map_some, Option.some.injEq, Prod.mk.injEq] at hc
    simp only
    rw [if_neg (by rw [hc.2.2]; simp)]
    unfold delone
    simp [hc.1, hc.2.1]

end Mmg.Del2
