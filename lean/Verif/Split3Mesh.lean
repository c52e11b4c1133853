/-
  Subdivision of a whole mesh (mmg3d/mmg3d1.c 1540-1608): every tetrahedron is cut according to the
  points stored for its edges; the result has no hanging node (C48).
-/
import Verif.Split3Props
import Mathlib.Tactic.Abel

namespace Mmg.Split3

/-! ### Model -/

/-- A tetrahedron of the mesh: `xt` tells whether it has a boundary record, `req` whether it is
required. -/
structure MTet where
  t : CTet
  xt : Bool
  req : Bool

/-- Point used for edge `e` (0 if none): mmg3d/mmg3d1.c 1546-1552.  `h a b` is the answer of
`MMG5_hashGet` for the edge `a b`; the edges tagged `MG_REQ` (4) in the boundary record are
skipped. -/
def edgePt (h : Nat → Nat → Nat) (m : MTet) (e : Nat) : Nat :=
  if m.xt && (m.t.tag.getD e 0 &&& 4#16 != 0) then 0
  else h (m.t.v.getD (iare.getD e (0, 0)).1 0) (m.t.v.getD (iare.getD e (0, 0)).2 0)

/-- `pt->flag`: `MG_SET(pt->flag,ia)` for every edge with a point, mmg3d/mmg3d1.c 1551. -/
def flagOf (vx : Nat → Nat) : Nat :=
  (List.range 6).foldl (fun m e => if 0 < vx e then m ||| 2 ^ e else m) 0

/-- One iteration of the loop: required tetrahedra are skipped, and the `switch` does nothing
when no edge carries a point, mmg3d/mmg3d1.c 1542-1607. -/
def splitOne (h : Nat → Nat → Nat) (junk : Nat → BitVec 16) (m : MTet) : List CTet :=
  if m.req then [m.t]
  else (split (flagOf (edgePt h m)) junk (edgePt h m) m.t).getD [m.t]

/-- The whole loop.  (In the code the first child stays in place and the others are appended after
the old elements; the loop stops at the old number of elements.) -/
def splitAll (h : Nat → Nat → Nat) (junk : Nat → BitVec 16) (ms : List MTet) : List CTet :=
  ms.flatMap (splitOne h junk)

/-! ### Specification -/

/-- The point of an edge, if there is one. -/
def ptOpt (h : Nat → Nat → Nat) (a b : Nat) : Option Nat := if h a b = 0 then none else some (h a b)

/-- Subdivision of a triangle: it only depends on the triangle and on the points of its sides.
The corners are taken in increasing order. -/
def cutTri (h : Nat → Nat → Nat) (τ : Multiset Nat) : Multiset (Multiset Nat) :=
  match τ.sort (· ≤ ·) with
  | [a, b, c] => cut a b c (ptOpt h a b) (ptOpt h a c) (ptOpt h b c) true true true
  | _ => {τ}

/-- No point is stored for an edge that the loop skips. -/
def NoSkippedPoint (h : Nat → Nat → Nat) (m : MTet) : Prop :=
  ∀ e < 6, (m.req = true ∨ (m.xt = true ∧ m.t.tag.getD e 0 &&& 4#16 ≠ 0)) →
    h (m.t.v.getD (iare.getD e (0, 0)).1 0) (m.t.v.getD (iare.getD e (0, 0)).2 0) = 0

/-! ### Lemmas -/

theorem flagOf_bits (vx : Nat → Nat) : flagOf vx < 64 ∧ ∀ e < 6,
    (flagOf vx).testBit e = decide (0 < vx e) := by
  have key : ∀ b0 b1 b2 b3 b4 b5 : Bool,
      let r := [(0, b0), (1, b1), (2, b2), (3, b3), (4, b4), (5, b5)].foldl
        (fun m (p : Nat × Bool) => if p.2 then m ||| 2 ^ p.1 else m) 0
      r < 64 ∧ r.testBit 0 = b0 ∧ r.testBit 1 = b1 ∧ r.testBit 2 = b2 ∧ r.testBit 3 = b3 ∧
        r.testBit 4 = b4 ∧ r.testBit 5 = b5 := by decide
  have := key (decide (0 < vx 0)) (decide (0 < vx 1)) (decide (0 < vx 2)) (decide (0 < vx 3))
    (decide (0 < vx 4)) (decide (0 < vx 5))
  have hr : flagOf vx = [(0, decide (0 < vx 0)), (1, decide (0 < vx 1)), (2, decide (0 < vx 2)),
      (3, decide (0 < vx 3)), (4, decide (0 < vx 4)), (5, decide (0 < vx 5))].foldl
        (fun m (p : Nat × Bool) => if p.2 then m ||| 2 ^ p.1 else m) 0 := by
    simp only [flagOf, show List.range 6 = [0, 1, 2, 3, 4, 5] from rfl, List.foldl_cons,
      List.foldl_nil, decide_eq_true_eq]
  simp only [← hr] at this
  obtain ⟨h, h0, h1, h2, h3, h4, h5⟩ := this
  refine ⟨h, fun e he => ?_⟩
  interval_cases e <;> assumption

theorem cut_map {V W : Type} (g : V → W) (a b c : V) (x y z : Option V) (p q r : Bool) :
    (cut a b c x y z p q r).map (Multiset.map g) =
      cut (g a) (g b) (g c) (x.map g) (y.map g) (z.map g) p q r := by
  cases x <;> cases y <;> cases z <;> cases p <;> cases q <;> cases r <;> simp [cut]

theorem cut_congr {V : Type} (a b c : V) (x y z : Option V) {p q r p' q' r' : Bool}
    (hr : x.isSome → y.isSome → z = none → r = r') (hq : x.isSome → y = none → z.isSome → q = q')
    (hp : x = none → y.isSome → z.isSome → p = p') :
    cut a b c x y z p q r = cut a b c x y z p' q' r' := by
  cases x <;> cases y <;> cases z <;> simp_all [cut]

/-- Exchange of the first two corners. -/
theorem cut_swap12 {V : Type} (a b c : V) (x y z : Option V) (p q r : Bool) :
    cut a b c x y z p q r = cut b a c x z y (!p) r q := by
  cases x <;> cases y <;> cases z <;> cases p <;> cases q <;> cases r <;>
    simp [cut, Multiset.insert_eq_cons, ← Multiset.singleton_add, add_comm, add_left_comm]

/-- Exchange of the last two corners. -/
theorem cut_swap23 {V : Type} (a b c : V) (x y z : Option V) (p q r : Bool) :
    cut a b c x y z p q r = cut a c b y x z q p (!r) := by
  cases x <;> cases y <;> cases z <;> cases p <;> cases q <;> cases r <;>
    simp [cut, Multiset.insert_eq_cons, ← Multiset.singleton_add, add_comm, add_left_comm]

theorem sort_three {a b c : Nat} (h1 : a < b) (h2 : b < c) :
    ({a, b, c} : Multiset Nat).sort (· ≤ ·) = [a, b, c] := by
  have : ({a, b, c} : Multiset Nat) = ↑[a, b, c] := rfl
  rw [this, Multiset.coe_sort]
  apply List.mergeSort_of_pairwise
  simp
  omega

/-- The trace of a triangle in any order of its corners. -/
theorem cutTri_eq (h : Nat → Nat → Nat) (hs : ∀ a b, h a b = h b a) {a b c : Nat} (hab : a ≠ b)
    (hac : a ≠ c) (hbc : b ≠ c) :
    cutTri h {a, b, c} = cut a b c (ptOpt h a b) (ptOpt h a c) (ptOpt h b c) (decide (a < b))
      (decide (a < c)) (decide (b < c)) := by
  have ps : ∀ a b, ptOpt h a b = ptOpt h b a := fun a b => by unfold ptOpt; rw [hs]
  have base : ∀ a b c : Nat, a < b → b < c →
      cutTri h {a, b, c} = cut a b c (ptOpt h a b) (ptOpt h a c) (ptOpt h b c) (decide (a < b))
        (decide (a < c)) (decide (b < c)) := by
    intro a b c h1 h2
    unfold cutTri
    rw [sort_three h1 h2]
    simp [h1, h2, h1.trans h2]
  have neg : ∀ a b : Nat, a ≠ b → (!decide (a < b)) = decide (b < a) := by
    intro a b hne
    rw [Bool.eq_iff_iff]
    simp
    omega
  have s12 : ∀ a b c : Nat, ({a, b, c} : Multiset Nat) = {b, a, c} := by
    intro a b c
    simp [Multiset.insert_eq_cons, ← Multiset.singleton_add, add_left_comm]
  have s23 : ∀ a b c : Nat, ({a, b, c} : Multiset Nat) = {a, c, b} := by
    intro a b c
    simp [Multiset.insert_eq_cons, ← Multiset.singleton_add, add_comm]
  have w12 : ∀ a b c : Nat, a ≠ b →
      cut a b c (ptOpt h a b) (ptOpt h a c) (ptOpt h b c) (decide (a < b))
        (decide (a < c)) (decide (b < c)) =
      cut b a c (ptOpt h b a) (ptOpt h b c) (ptOpt h a c) (decide (b < a))
        (decide (b < c)) (decide (a < c)) := by
    intro a b c hne
    rw [cut_swap12, neg a b hne, ps a b]
  have w23 : ∀ a b c : Nat, b ≠ c →
      cut a b c (ptOpt h a b) (ptOpt h a c) (ptOpt h b c) (decide (a < b))
        (decide (a < c)) (decide (b < c)) =
      cut a c b (ptOpt h a c) (ptOpt h a b) (ptOpt h c b) (decide (a < c))
        (decide (a < b)) (decide (c < b)) := by
    intro a b c hne
    rw [cut_swap23, neg b c hne, ps b c]
  rcases Nat.lt_or_gt_of_ne hab with h1 | h1 <;> rcases Nat.lt_or_gt_of_ne hbc with h2 | h2 <;>
    rcases Nat.lt_or_gt_of_ne hac with h3 | h3
  · exact base a b c h1 h2
  · omega
  · -- a < c < b
    rw [s23, w23 a b c hbc]; exact base a c b h3 h2
  · -- c < a < b
    rw [s23, w23 a b c hbc, s12, w12 a c b hac]; exact base c a b h3 h1
  · -- b < a < c
    rw [s12, w12 a b c hab]; exact base b a c h1 h3
  · -- b < c < a
    rw [s12, w12 a b c hab, s23, w23 b a c hac]; exact base b c a h2 h3
  · omega
  · -- c < b < a
    rw [s12, w12 a b c hab, s23, w23 b a c hac, s12, w12 b c a hbc]; exact base c b a h2 h1

/-! Comparisons used by the traces. -/

theorem mem_csOf {flag : Nat} {v : List Nat} {q : Nat × Nat} :
    q ∈ csOf flag v ↔ q ∈ queries flag ∧ v.getD q.1 0 < v.getD q.2 0 := by
  simp [csOf, cmpOf]

theorem cmpAt_csOf {flag : Nat} {v : List Nat} {i j : Nat}
    (hq : (i, j) ∈ queries flag ∨ (j, i) ∈ queries flag) (hne : v.getD i 0 ≠ v.getD j 0) :
    cmpAt flag (csOf flag v) i j = decide (v.getD i 0 < v.getD j 0) := by
  unfold cmpAt
  by_cases h : (i, j) ∈ queries flag
  · rw [if_pos h]
    simp [mem_csOf, h]
  · rw [if_neg h]
    have h' := hq.resolve_left h
    rw [Bool.eq_iff_iff]
    simp only [mem_csOf, h', true_and, Bool.not_eq_true', decide_eq_false_iff_not, not_lt,
      decide_eq_true_eq]
    omega

def coneShape (f : Nat) : Bool :=
  match queries f with
  | [q1, q2, q3] => decide (q2.2 = q1.1 ∧ q3.2 = q1.2 ∧ q2.1 = q3.1)
  | _ => true

theorem coneShape_all : ∀ f ∈ List.range' 1 63, coneShape f = true := by decide +kernel

theorem transitive_csOf {flag : Nat} (h1 : 1 ≤ flag) (h2 : flag < 64) (v : List Nat) :
    transitive flag (csOf flag v) = true := by
  have hs := coneShape_all flag (by rw [List.mem_range'_1]; omega)
  unfold coneShape at hs
  unfold transitive
  split
  · rename_i q1 q2 q3 hq
    rw [hq] at hs
    simp only [decide_eq_true_eq] at hs
    obtain ⟨e1, e2, e3⟩ := hs
    have m1 : q1 ∈ csOf flag v ↔ v.getD q1.1 0 < v.getD q1.2 0 := by rw [mem_csOf, hq]; simp
    have m2 : q2 ∈ csOf flag v ↔ v.getD q2.1 0 < v.getD q1.1 0 := by rw [mem_csOf, hq, ← e1]; simp
    have m3 : q3 ∈ csOf flag v ↔ v.getD q2.1 0 < v.getD q1.2 0 := by
      rw [mem_csOf, hq, e3, ← e2]; simp
    rw [Bool.not_eq_true', Bool.or_eq_false_iff, Bool.eq_false_iff, Bool.eq_false_iff]
    simp only [ne_eq, Bool.and_eq_true, decide_eq_true_eq, m1, m2, m3]
    omega
  · rfl

/-- When two sides of a face are cut, the corners to compare are compared by the code. -/
def relevant (f g : Nat) : Bool :=
  let c := (faceIdx g).1
  let m := (faceIdx g).2
  let q := queries f
  (!(f.testBit m.1 && f.testBit m.2.1 && !f.testBit m.2.2) || (c.2.1, c.2.2) ∈ q ||
    (c.2.2, c.2.1) ∈ q) &&
  (!(f.testBit m.1 && !f.testBit m.2.1 && f.testBit m.2.2) || (c.1, c.2.2) ∈ q ||
    (c.2.2, c.1) ∈ q) &&
  (!(!f.testBit m.1 && f.testBit m.2.1 && f.testBit m.2.2) || (c.1, c.2.1) ∈ q ||
    (c.2.1, c.1) ∈ q)

theorem relevant_all : ∀ f ∈ List.range' 1 63, ∀ g < 4, relevant f g = true := by decide +kernel

/-- Trace of the split on face `g`, in terms of the vertex numbers. -/
theorem symCut_val {flag : Nat} (h1 : 1 ≤ flag) (h2 : flag < 64) {t : CTet} (wf : WF t)
    (hd : t.v.Nodup) {vx : Nat → Nat} {h : Nat → Nat → Nat} (hs : ∀ a b, h a b = h b a)
    (hvx : ∀ e < 6, vx e = h (t.v.getD (iare.getD e (0, 0)).1 0) (t.v.getD (iare.getD e (0, 0)).2 0))
    (hfl : ∀ e < 6, flag.testBit e = decide (0 < vx e)) {g : Nat} (hg : g < 4) :
    (symCut flag (csOf flag t.v) g).map (Multiset.map (val t vx 0)) =
      cutTri h (faceTri 0 t.v g) := by
  have hr := relevant_all flag (by rw [List.mem_range'_1]; omega) g hg
  have hv := wf.v
  have hinj : ∀ a < 4, ∀ b < 4, a ≠ b → t.v.getD a 0 ≠ t.v.getD b 0 := by
    intro a ha b hb hne hab
    rw [List.getD_eq_getElem _ _ (by omega), List.getD_eq_getElem _ _ (by omega)] at hab
    exact hne ((List.Nodup.getElem_inj_iff hd).1 hab)
  have hmid : ∀ e < 6, (midOpt flag e).map (val t vx 0) =
      ptOpt h (t.v.getD (iare.getD e (0, 0)).1 0) (t.v.getD (iare.getD e (0, 0)).2 0) := by
    intro e he
    unfold midOpt ptOpt
    rw [hfl e he, ← hvx e he]
    by_cases h0 : vx e = 0
    · simp [h0]
    · simp [h0, Nat.pos_of_ne_zero h0, val]
  have hsome : ∀ e, ((midOpt flag e).map (val t vx 0)).isSome = flag.testBit e := by
    intro e
    unfold midOpt
    cases flag.testBit e <;> rfl
  have hnone : ∀ e, (midOpt flag e).map (val t vx 0) = none ↔ flag.testBit e = false := by
    intro e
    unfold midOpt
    cases flag.testBit e <;> simp
  -- shape of the face
  have shape : (faceIdx g).1.1 < 4 ∧ (faceIdx g).1.2.1 < 4 ∧ (faceIdx g).1.2.2 < 4 ∧
      (faceIdx g).1.1 ≠ (faceIdx g).1.2.1 ∧ (faceIdx g).1.1 ≠ (faceIdx g).1.2.2 ∧
      (faceIdx g).1.2.1 ≠ (faceIdx g).1.2.2 ∧ (faceIdx g).2.1 < 6 ∧ (faceIdx g).2.2.1 < 6 ∧
      (faceIdx g).2.2.2 < 6 ∧
      iare.getD (faceIdx g).2.1 (0, 0) = ((faceIdx g).1.1, (faceIdx g).1.2.1) ∧
      iare.getD (faceIdx g).2.2.1 (0, 0) = ((faceIdx g).1.1, (faceIdx g).1.2.2) ∧
      iare.getD (faceIdx g).2.2.2 (0, 0) = ((faceIdx g).1.2.1, (faceIdx g).1.2.2) ∧
      others g = [(faceIdx g).1.1, (faceIdx g).1.2.1, (faceIdx g).1.2.2] := by
    interval_cases g <;> decide
  unfold relevant at hr
  unfold symCut
  unfold faceTri
  revert hr shape
  generalize faceIdx g = ix
  obtain ⟨⟨a, b, c⟩, m1, m2, m3⟩ := ix
  simp only
  rintro hr ⟨la, lb, lc, nab, nac, nbc, l1, l2, l3, i1, i2, i3, ho⟩
  rw [ho]
  rw [cut_map]
  have hface : (([a, b, c].map fun i => t.v.getD i 0 : List Nat) : Multiset Nat) =
      {t.v.getD a 0, t.v.getD b 0, t.v.getD c 0} := rfl
  rw [hface, cutTri_eq h hs (hinj a la b lb nab) (hinj a la c lc nac) (hinj b lb c lc nbc)]
  have e1 := hmid m1 l1
  have e2 := hmid m2 l2
  have e3 := hmid m3 l3
  rw [i1] at e1
  rw [i2] at e2
  rw [i3] at e3
  rw [← e1, ← e2, ← e3]
  simp only [Bool.and_eq_true, Bool.or_eq_true, Bool.not_eq_true', Bool.and_eq_false_iff,
    decide_eq_true_eq] at hr
  obtain ⟨⟨r1, r2⟩, r3⟩ := hr
  simp only [val]
  apply cut_congr
  · intro x y z
    rw [hsome] at x y
    rw [hnone] at z
    refine cmpAt_csOf ?_ (hinj b lb c lc nbc)
    simpa [x, y, z] using r1
  · intro x y z
    rw [hsome] at x z
    rw [hnone] at y
    refine cmpAt_csOf ?_ (hinj a la c lc nac)
    simpa [x, y, z] using r2
  · intro x y z
    rw [hsome] at y z
    rw [hnone] at x
    refine cmpAt_csOf ?_ (hinj a la b lb nab)
    simpa [x, y, z] using r3

theorem faceTri_map {V W : Type} (g : V → W) (d : V) (v : List V) (f : Nat) :
    (faceTri d v f).map g = faceTri (g d) (v.map g) f := by
  unfold faceTri
  rw [Multiset.map_coe, List.map_map]
  congr 1
  apply List.map_congr_left
  intro i _
  exact (List.getD_map _ _ g).symm

theorem allFaces_map {V W : Type} (g : V → W) (d : V) (vs : List (List V)) :
    (allFaces d vs).map (Multiset.map g) = allFaces (g d) (vs.map (List.map g)) := by
  unfold allFaces
  rw [Multiset.map_coe, List.map_flatMap, List.flatMap_map]
  simp only [List.map_cons, List.map_nil, faceTri_map]

theorem mem_allFaces {V : Type} {d : V} {vs : List (List V)} {τ : Multiset V}
    (hτ : τ ∈ allFaces d vs) (h4 : ∀ v ∈ vs, v.length = 4) :
    ∀ a ∈ τ, ∃ v ∈ vs, a ∈ v := by
  unfold allFaces at hτ
  rw [Multiset.mem_coe, List.mem_flatMap] at hτ
  obtain ⟨v, hv, hτ⟩ := hτ
  intro a ha
  refine ⟨v, hv, ?_⟩
  have h4 := h4 v hv
  have key : ∀ f < 4, a ∈ faceTri d v f → a ∈ v := by
    intro f hf hm
    unfold faceTri at hm
    rw [Multiset.mem_coe, List.mem_map] at hm
    obtain ⟨i, hi, rfl⟩ := hm
    have : i < 4 := by interval_cases f <;> simp [others] at hi <;> omega
    rw [List.getD_eq_getElem _ _ (by omega)]
    exact List.getElem_mem _
  simp only [List.mem_cons, List.not_mem_nil, or_false] at hτ
  rcases hτ with rfl | rfl | rfl | rfl
  · exact key 0 (by decide) ha
  · exact key 1 (by decide) ha
  · exact key 2 (by decide) ha
  · exact key 3 (by decide) ha

/-- A renaming that is injective on the elements used keeps distinct multisets distinct. -/
theorem multiset_map_inj {V W : Type} [Nonempty V] {g : V → W} {S : V → Prop}
    (hg : ∀ a b, S a → S b → g a = g b → a = b) {x y : Multiset V} (hx : ∀ a ∈ x, S a)
    (hy : ∀ a ∈ y, S a) (h : x.map g = y.map g) : x = y := by
  classical
  let k : W → V := fun w => if hw : ∃ a, S a ∧ g a = w then hw.choose else Classical.arbitrary V
  have hk : ∀ a, S a → k (g a) = a := by
    intro a ha
    have hw : ∃ b, S b ∧ g b = g a := ⟨a, ha, rfl⟩
    simp only [k, dif_pos hw]
    exact hg _ _ hw.choose_spec.1 ha hw.choose_spec.2
  have := congrArg (Multiset.map k) h
  rw [Multiset.map_map, Multiset.map_map] at this
  have ex : x.map (k ∘ g) = x := by
    conv_rhs => rw [← Multiset.map_id x]
    exact Multiset.map_congr rfl fun a ha => hk a (hx a ha)
  have ey : y.map (k ∘ g) = y := by
    conv_rhs => rw [← Multiset.map_id y]
    exact Multiset.map_congr rfl fun a ha => hk a (hy a ha)
  rwa [ex, ey] at this

/-- The points of the split edges are new and distinct. -/
def FreshPoints (flag : Nat) (v : List Nat) (vx : Nat → Nat) : Prop :=
  (∀ e < 6, flag.testBit e = true → vx e ∉ v) ∧
  ∀ e < 6, flag.testBit e = true → ∀ e' < 6, flag.testBit e' = true → vx e = vx e' → e = e'

theorem val_inj {flag : Nat} {t : CTet} (wf : WF t) (hd : t.v.Nodup) {vx : Nat → Nat}
    (hf : FreshPoints flag t.v vx) {p q : Pos}
    (hp : (∃ i < 4, p = .corner i) ∨ ∃ e < 6, flag.testBit e = true ∧ p = .mid e)
    (hq : (∃ i < 4, q = .corner i) ∨ ∃ e < 6, flag.testBit e = true ∧ q = .mid e)
    (h : val t vx 0 p = val t vx 0 q) : p = q := by
  have hv := wf.v
  have hmem : ∀ i < 4, t.v.getD i 0 ∈ t.v := by
    intro i hi
    rw [List.getD_eq_getElem _ _ (by omega)]
    exact List.getElem_mem _
  rcases hp with ⟨i, hi, rfl⟩ | ⟨e, he, hb, rfl⟩ <;> rcases hq with ⟨j, hj, rfl⟩ | ⟨e', he', hb', rfl⟩ <;>
    simp only [val] at h
  · rw [List.getD_eq_getElem _ _ (by omega), List.getD_eq_getElem _ _ (by omega)] at h
    rw [(List.Nodup.getElem_inj_iff hd).1 h]
  · exact absurd (h ▸ hmem i hi) (hf.1 e' he' hb')
  · exact absurd (h ▸ hmem j hj) (hf.1 e he hb)
  · rw [hf.2 e he hb e' he' hb' h]

/-- Faces of the children of one tetrahedron. -/
theorem split_faces {flag : Nat} {junk : Nat → BitVec 16} {t : CTet} (wf : WF t)
    (hd : t.v.Nodup) {vx : Nat → Nat} {h : Nat → Nat → Nat} (hs : ∀ a b, h a b = h b a)
    (hvx : ∀ e < 6, vx e = h (t.v.getD (iare.getD e (0, 0)).1 0) (t.v.getD (iare.getD e (0, 0)).2 0))
    (hfl : ∀ e < 6, flag.testBit e = decide (0 < vx e)) {ch : List CTet}
    (hsp : split flag junk vx t = some ch) :
    ∃ inner : Multiset (Multiset Nat), allFaces 0 (ch.map (·.v)) =
      (allFaces 0 [t.v]).bind (cutTri h) + inner + inner ∧
      (FreshPoints flag t.v vx → ((allFaces 0 [t.v]).bind (cutTri h) + inner).Nodup) := by
  obtain ⟨⟨h1, h2⟩, hch⟩ := split_kids wf hsp
  have hr := forRuns_spec runs_faces h1 h2 (cmpOf fun i => t.v.getD i 0)
  have ht := transitive_csOf h1 h2 t.v
  unfold csOf at ht
  rw [ht, Bool.not_true, Bool.false_or, decide_eq_true_eq] at hr
  have htr : (symTraces flag (csOf flag t.v)).map (Multiset.map (val t vx 0)) =
      (allFaces 0 [t.v]).bind (cutTri h) := by
    unfold symTraces
    rw [Multiset.map_add, Multiset.map_add, Multiset.map_add]
    have e : ∀ g < 4, (symCut flag (csOf flag t.v) g).map (Multiset.map (val t vx 0)) =
        cutTri h (faceTri 0 t.v g) := fun g hg => symCut_val h1 h2 wf hd hs hvx hfl hg
    rw [e 0 (by decide), e 1 (by decide), e 2 (by decide), e 3 (by decide)]
    simp [allFaces, ← Multiset.cons_coe, add_assoc]
  refine ⟨(symInner flag (csOf flag t.v)).map (Multiset.map (val t vx 0)), ?_, ?_⟩
  · have hr := congrArg (Multiset.map (Multiset.map (val t vx 0))) hr
    rw [allFaces_map, List.map_map] at hr
    have hk : ch.map (·.v) = (kids flag (csOf flag t.v)).map (List.map (val t vx 0) ∘ (·.v)) := by
      rw [hch, List.map_map]; rfl
    rw [hk, ← htr]
    refine Eq.trans hr ?_
    rw [Multiset.map_add, Multiset.map_add]
    rfl
  · intro hf
    rw [← htr, ← Multiset.map_add]
    have hn := forRuns_spec runs_nodup h1 h2 (cmpOf fun i => t.v.getD i 0)
    rw [decide_eq_true_eq] at hn
    have hel : ∀ τ ∈ symTraces flag (csOf flag t.v) + symInner flag (csOf flag t.v), ∀ a ∈ τ,
        (∃ i < 4, a = Pos.corner i) ∨ ∃ e < 6, flag.testBit e = true ∧ a = .mid e := by
      intro τ hτ a ha
      have hm : τ ∈ allFaces .centre ((kids flag (csOf flag t.v)).map (·.v)) := by
        unfold csOf at hτ ⊢
        rw [hr]
        exact Multiset.mem_add.2 (.inl hτ)
      obtain ⟨v, hv, hav⟩ := mem_allFaces hm (by
        intro v hv
        obtain ⟨x, hx, rfl⟩ := List.mem_map.1 hv
        exact (kid_vert h1 h2 hx).1) a ha
      obtain ⟨x, hx, rfl⟩ := List.mem_map.1 hv
      exact (kid_vert h1 h2 hx).2 a hav
    have : Nonempty Pos := ⟨.centre⟩
    refine Multiset.Nodup.map_on ?_ hn
    intro x hx y hy hxy
    exact multiset_map_inj (S := fun a => (∃ i < 4, a = Pos.corner i) ∨
      ∃ e < 6, flag.testBit e = true ∧ a = .mid e)
      (fun a b ha hb hab => val_inj wf hd hf ha hb hab) (hel x hx) (hel y hy) hxy

/-- A triangle without point on its sides is not cut. -/
theorem cutTri_none {h : Nat → Nat → Nat} (hs : ∀ a b, h a b = h b a) {a b c : Nat} (hab : a ≠ b)
    (hac : a ≠ c) (hbc : b ≠ c) (h1 : h a b = 0) (h2 : h a c = 0) (h3 : h b c = 0) :
    cutTri h {a, b, c} = {{a, b, c}} := by
  rw [cutTri_eq h hs hab hac hbc]
  simp [ptOpt, h1, h2, h3, cut]

theorem allFaces_none {t : CTet} (wf : WF t) (hd : t.v.Nodup) {h : Nat → Nat → Nat}
    (hs : ∀ a b, h a b = h b a)
    (h0 : ∀ e < 6, h (t.v.getD (iare.getD e (0, 0)).1 0) (t.v.getD (iare.getD e (0, 0)).2 0) = 0) :
    allFaces 0 [t.v] = (allFaces 0 [t.v]).bind (cutTri h) := by
  have hv := list4 0 wf.v
  have e0 := h0 0 (by decide)
  have e1 := h0 1 (by decide)
  have e2 := h0 2 (by decide)
  have e3 := h0 3 (by decide)
  have e4 := h0 4 (by decide)
  have e5 := h0 5 (by decide)
  simp only [iare, List.getD_cons_zero, List.getD_cons_succ] at e0 e1 e2 e3 e4 e5
  revert hd e0 e1 e2 e3 e4 e5
  rw [hv]
  generalize t.v.getD 0 0 = p, t.v.getD 1 0 = q, t.v.getD 2 0 = r, t.v.getD 3 0 = w
  simp only [List.getD_cons_zero, List.getD_cons_succ]
  intro hd e0 e1 e2 e3 e4 e5
  simp only [List.nodup_cons, List.mem_cons, List.not_mem_nil, or_false, not_or] at hd
  obtain ⟨⟨npq, npr, npw⟩, ⟨nqr, nqw⟩, nrw, _⟩ := hd
  have f0 : faceTri 0 [p, q, r, w] 0 = {q, r, w} := rfl
  have f1 : faceTri 0 [p, q, r, w] 1 = {p, r, w} := rfl
  have f2 : faceTri 0 [p, q, r, w] 2 = {p, q, w} := rfl
  have f3 : faceTri 0 [p, q, r, w] 3 = {p, q, r} := rfl
  have c0 := cutTri_none hs nqr nqw nrw e3 e4 e5
  have c1 := cutTri_none hs npr npw nrw e1 e2 e5
  have c2 := cutTri_none hs npq npw nqw e0 e2 e4
  have c3 := cutTri_none hs npq npr nqr e0 e1 e3
  have ha : allFaces 0 [[p, q, r, w]] =
      {({q, r, w} : Multiset Nat)} + {{p, r, w}} + {{p, q, w}} + {{p, q, r}} := by
    simp only [allFaces, List.flatMap_cons, List.flatMap_nil, List.append_nil, f0, f1, f2, f3]
    rfl
  rw [ha]
  simp only [Multiset.add_bind, Multiset.singleton_bind, c0, c1, c2, c3]

theorem allFaces_append {V : Type} (d : V) (a b : List (List V)) :
    allFaces d (a ++ b) = allFaces d a + allFaces d b := by
  unfold allFaces
  rw [List.flatMap_append, ← Multiset.coe_add]

/-! ### C48: no hanging node -/

/-- One tetrahedron: the faces of its children are the traces on its four faces, which only depend
on the faces and on the points of their sides, and inner faces, each shared by two children. -/
theorem splitOne_faces {h : Nat → Nat → Nat} (hs : ∀ a b, h a b = h b a)
    (junk : Nat → BitVec 16) {m : MTet} (wf : WF m.t) (hd : m.t.v.Nodup)
    (hn : NoSkippedPoint h m) :
    ∃ inner : Multiset (Multiset Nat), allFaces 0 ((splitOne h junk m).map (·.v)) =
      (allFaces 0 [m.t.v]).bind (cutTri h) + inner + inner := by
  have hvx : ∀ e < 6, edgePt h m e = h (m.t.v.getD (iare.getD e (0, 0)).1 0)
      (m.t.v.getD (iare.getD e (0, 0)).2 0) := by
    intro e he
    unfold edgePt
    split_ifs with hc
    · simp only [Bool.and_eq_true, bne_iff_ne, ne_eq] at hc
      exact (hn e he (.inr hc)).symm
    · rfl
  unfold splitOne
  by_cases hreq : m.req = true
  · rw [if_pos hreq]
    refine ⟨0, ?_⟩
    rw [add_zero, add_zero]
    exact allFaces_none wf hd hs fun e he => hn e he (.inl hreq)
  · rw [if_neg hreq]
    obtain ⟨hlt, hbits⟩ := flagOf_bits (edgePt h m)
    rcases Nat.eq_zero_or_pos (flagOf (edgePt h m)) with h0 | hpos
    · have hsp : split (flagOf (edgePt h m)) junk (edgePt h m) m.t = none := by
        rw [h0]
        unfold split
        rw [Option.map_eq_none_iff]
        by_contra hc
        obtain ⟨p, hp⟩ := Option.ne_none_iff_exists'.1 hc
        have := (prog_range hp).1
        omega
      rw [hsp]
      refine ⟨0, ?_⟩
      rw [add_zero, add_zero]
      refine allFaces_none wf hd hs fun e he => ?_
      have := hbits e he
      rw [h0, Nat.zero_testBit] at this
      rw [← hvx e he]
      have := of_decide_eq_false this.symm
      omega
    · obtain ⟨ch, hsp⟩ := split_some hpos hlt junk (edgePt h m) m.t
      rw [hsp]
      obtain ⟨i, hi, _⟩ := split_faces wf hd hs hvx hbits hsp
      exact ⟨i, hi⟩

/-- C48.  After the subdivision of a whole mesh, the faces are the subdivided faces of the old
mesh, with the same multiplicity, and new inner faces, each shared by two tetrahedra.  Two old
tetrahedra that shared a face therefore still match along it. -/
theorem splitAll_conforming {h : Nat → Nat → Nat} (hs : ∀ a b, h a b = h b a)
    (junk : Nat → BitVec 16) {ms : List MTet}
    (hw : ∀ m ∈ ms, WF m.t ∧ m.t.v.Nodup ∧ NoSkippedPoint h m) :
    ∃ inner : Multiset (Multiset Nat), allFaces 0 ((splitAll h junk ms).map (·.v)) =
      (allFaces 0 (ms.map (·.t.v))).bind (cutTri h) + inner + inner := by
  induction ms with
  | nil => exact ⟨0, rfl⟩
  | cons m ms ih =>
    obtain ⟨i1, e1⟩ := ih fun m' hm' => hw m' (List.mem_cons_of_mem _ hm')
    obtain ⟨wf, hd, hn⟩ := hw m List.mem_cons_self
    obtain ⟨i2, e2⟩ := splitOne_faces hs junk wf hd hn
    refine ⟨i1 + i2, ?_⟩
    have e3 : (splitAll h junk (m :: ms)).map (·.v) =
        (splitOne h junk m).map (·.v) ++ (splitAll h junk ms).map (·.v) := by
      simp [splitAll]
    have e4 : (m :: ms).map (·.t.v) = [m.t.v] ++ ms.map (·.t.v) := rfl
    rw [e3, e4, allFaces_append, allFaces_append, e1, e2, Multiset.add_bind]
    generalize (allFaces 0 [m.t.v]).bind (cutTri h) = A
    generalize (allFaces 0 (ms.map (·.t.v))).bind (cutTri h) = B
    abel

/-! Examples -/

def plainTet (v : List Nat) : CTet :=
  { v := v, tag := [0, 0, 0, 0, 0, 0], edg := [0, 0, 0, 0, 0, 0], ref := [0, 0, 0, 0],
    ftag := [0, 0, 0, 0], ori := [false, false, false, false] }

/-- Two tetrahedra that share a face; one edge of the face carries the point 10. -/
def hEx (a b : Nat) : Nat := if (a, b) = (1, 2) ∨ (a, b) = (2, 1) then 10 else 0

def msEx : List MTet :=
  [⟨plainTet [1, 2, 3, 4], false, false⟩, ⟨plainTet [2, 1, 3, 5], true, false⟩]

theorem hEx_symm : ∀ a b, hEx a b = hEx b a := by
  intro a b
  unfold hEx
  simp only [Prod.mk.injEq]
  congr 1
  exact propext ⟨fun h => by omega, fun h => by omega⟩

example : (∀ m ∈ msEx, WF m.t ∧ m.t.v.Nodup ∧ NoSkippedPoint hEx m) ∧
    (splitAll hEx (fun _ => 0) msEx).length = 4 := by
  constructor
  · intro m hm
    simp only [msEx, List.mem_cons, List.not_mem_nil, or_false] at hm
    rcases hm with rfl | rfl
    · refine ⟨⟨rfl, rfl, rfl, rfl, rfl, rfl⟩, by decide, ?_⟩
      intro e he
      interval_cases e <;> decide
    · refine ⟨⟨rfl, rfl, rfl, rfl, rfl, rfl⟩, by decide, ?_⟩
      intro e he
      interval_cases e <;> decide
  · decide +kernel

example : FreshPoints 21 tetEx.v vxEx := by
  unfold FreshPoints
  refine ⟨by decide, ?_⟩
  intro e he _ e' he' _ h
  unfold vxEx at h
  omega

/-- The same mesh, where the first tetrahedron has a boundary record in which the edge is
required, while the second one has none: the loop skips the edge in one of them only. -/
def msBad : List MTet :=
  [⟨{ plainTet [1, 2, 3, 4] with tag := [4, 0, 0, 0, 0, 0] }, true, false⟩,
    ⟨plainTet [2, 1, 3, 5], false, false⟩]

/-- Without `NoSkippedPoint` the result may have a hanging node: the hypothesis is needed. -/
theorem splitAll_skips_one_side :
    (∀ m ∈ msBad, WF m.t ∧ m.t.v.Nodup) ∧
    ¬ ∃ inner : Multiset (Multiset Nat),
      allFaces 0 ((splitAll hEx (fun _ => 0) msBad).map (·.v)) =
        (allFaces 0 (msBad.map (·.t.v))).bind (cutTri hEx) + inner + inner := by
  constructor
  · intro m hm
    simp only [msBad, List.mem_cons, List.not_mem_nil, or_false] at hm
    rcases hm with rfl | rfl
    · exact ⟨⟨rfl, rfl, rfl, rfl, rfl, rfl⟩, by decide⟩
    · exact ⟨⟨rfl, rfl, rfl, rfl, rfl, rfl⟩, by decide⟩
  · rintro ⟨inner, h⟩
    have h := congrArg (Multiset.count {1, 2, 3}) h
    rw [Multiset.count_add, Multiset.count_add] at h
    have e1 : Multiset.count {1, 2, 3}
        (allFaces 0 ((splitAll hEx (fun _ => 0) msBad).map (·.v))) = 1 := by decide +kernel
    have e2 : Multiset.count {1, 2, 3}
        ((allFaces 0 (msBad.map (·.t.v))).bind (cutTri hEx)) = 0 := by
      have ha : allFaces 0 (msBad.map (·.t.v)) = ↑([{2, 3, 4}, {1, 3, 4}, {1, 2, 4}, {1, 2, 3},
        {1, 3, 5}, {2, 3, 5}, {2, 1, 5}, {2, 1, 3}] : List (Multiset Nat)) := rfl
      have q : ∀ {a b c : Nat}, a ≠ b → a ≠ c → b ≠ c → cutTri hEx {a, b, c} = _ :=
        fun h1 h2 h3 => cutTri_eq hEx hEx_symm h1 h2 h3
      rw [ha]
      simp only [← Multiset.cons_coe, Multiset.cons_bind, Multiset.coe_nil, Multiset.zero_bind]
      rw [q (a := 2) (b := 3) (c := 4), q (a := 1) (b := 3) (c := 4), q (a := 1) (b := 2) (c := 4),
        q (a := 1) (b := 2) (c := 3), q (a := 1) (b := 3) (c := 5), q (a := 2) (b := 3) (c := 5),
        q (a := 2) (b := 1) (c := 5), q (a := 2) (b := 1) (c := 3)] <;> decide +kernel
    omega

/-- The volume of the mesh is kept when the new points are on their edges. -/
theorem splitAll_volume {K : Type} [Field K] {h : Nat → Nat → Nat} (junk : Nat → BitVec 16)
    {ms : List MTet} (hw : ∀ m ∈ ms, WF m.t) {c : Nat → Pt K} {s : MTet → Nat → K}
    (hc : ∀ m ∈ ms, PointsOnEdges (flagOf (edgePt h m)) c m.t.v (edgePt h m) (s m)) :
    ((splitAll h junk ms).map fun x => volOf c x.v).sum =
      (ms.map fun m => volOf c m.t.v).sum := by
  induction ms with
  | nil => rfl
  | cons m ms ih =>
    have ih := ih (fun m' hm' => hw m' (List.mem_cons_of_mem _ hm'))
      (fun m' hm' => hc m' (List.mem_cons_of_mem _ hm'))
    have e3 : splitAll h junk (m :: ms) = splitOne h junk m ++ splitAll h junk ms := by
      simp [splitAll]
    rw [e3, List.map_append, List.sum_append, ih, List.map_cons, List.sum_cons]
    congr 1
    unfold splitOne
    split_ifs
    · simp
    · cases hsp : split (flagOf (edgePt h m)) junk (edgePt h m) m.t with
      | none => simp
      | some ch =>
        exact split_volume_sum (hw m List.mem_cons_self) hsp (hc m List.mem_cons_self)

end Mmg.Split3
