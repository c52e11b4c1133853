/-
  Properties of the subdivision of a tetrahedron: C41 (one split edge), C46 (inherited data),
  C47 (volumes and orientation), C51 (star split).
-/
import Verif.Split3Lift
import Mathlib.Data.List.GetD
import Mathlib.Tactic.NormNum
import Mathlib.Algebra.Order.Ring.Rat
import Mathlib.Data.List.Forall2

namespace Mmg.Split3

/-! ### A sample tetrahedron for the examples -/

/-- Unit tetrahedron with distinct data on every edge and face. -/
def tetEx : CTet :=
  { v := [7, 3, 9, 5], tag := [0, 2, 17, 4, 16, 1], edg := [1, 2, 3, 4, 5, 6],
    ref := [10, 20, 30, 40], ftag := [17, 16, 0, 144], ori := [true, false, false, true] }

def vxEx (e : Nat) : Nat := 100 + e

theorem tetEx_wf : WF tetEx := ⟨rfl, rfl, rfl, rfl, rfl, rfl⟩

/-- Coordinates for the examples: the vertices of `tetEx` are those of the unit tetrahedron, the
points of the edges are at the given fractions. -/
def cEx (s : Nat → ℚ) (i : Nat) : Pt ℚ :=
  let X : Nat → Pt ℚ := fun
    | 3 => ⟨1, 0, 0⟩ | 9 => ⟨0, 1, 0⟩ | 5 => ⟨0, 0, 1⟩ | _ => ⟨0, 0, 0⟩
  if 100 ≤ i then
    let e := i - 100
    Pt.lerp (X (tetEx.v.getD (iare.getD e (0, 0)).1 0)) (X (tetEx.v.getD (iare.getD e (0, 0)).2 0))
      (s e)
  else X i

theorem cEx_onEdges (flag : Nat) (s : Nat → ℚ) : PointsOnEdges flag (cEx s) tetEx.v vxEx s := by
  intro e he _
  interval_cases e <;> rfl

/-! ### C46: what the children inherit -/

/-- Every set of split edges is handled by one of the split functions. -/
theorem split_total {flag : Nat} (h1 : 1 ≤ flag) (h2 : flag < 64) (junk : Nat → BitVec 16)
    (vx : Nat → Nat) (t : CTet) : ∃ ch, split flag junk vx t = some ch :=
  split_some h1 h2 junk vx t

/-- The case in which the code does not transfer the orientation: three split edges of the
`split3op` kind whose two comparisons fail. -/
def LosesOri (flag : Nat) (v : List Nat) : Prop :=
  flag ∈ threeOp ∧ v.getD ((cfg3op flag).L 3) 0 ≤ v.getD ((cfg3op flag).L 0) 0 ∧
    v.getD ((cfg3op flag).L 2) 0 ≤ v.getD ((cfg3op flag).L 1) 0

/-- The children of a tetrahedron have their vertices at corners or at points of split edges; an
edge or a face of a child gets the reference, and a face gets the tag, of the edge or face of the
parent that carries it.  Edge tags are inherited unless all six edges are split, and orientations
are inherited except in the case `LosesOri`: in these cases the statement without restriction is
false (`split6_tags_wrong`, `split3op_ori_wrong`). -/
theorem split_inherits_partial {flag : Nat} {junk : Nat → BitVec 16} {vx : Nat → Nat} {t : CTet}
    {ch : List CTet} (wf : WF t) (h : split flag junk vx t = some ch) :
    ∃ pss : List (List Pos), List.Forall₂ (fun ps x =>
      OnSplitEdges flag ps ∧ Child t vx 0 ps x ∧ (flag ≠ 63 → TagsInherited t ps x) ∧
        (¬ LosesOri flag t.v → OriInherited t ps x)) pss ch := by
  obtain ⟨⟨h1, h2⟩, rfl⟩ := split_kids wf h
  refine ⟨(kids flag (csOf flag t.v)).map (·.v), ?_⟩
  rw [List.forall₂_map_left_iff, List.forall₂_map_right_iff, List.forall₂_same]
  intro x hx
  obtain ⟨h4, hp⟩ := kid_vert h1 h2 hx
  obtain ⟨he, hr, hf⟩ := kid_main h1 h2 hx
  refine ⟨hp, ⟨h4, rfl, ?_, ?_, ?_⟩, ?_, ?_⟩
  · simp only [Hom.tet]
    rw [← specEdg_hom vx 0 (ftagLocal flag junk t) t, ← he]
  · simp only [Hom.tet]
    rw [← specRef_hom vx 0 (ftagLocal flag junk t) t, ← hr]
  · simp only [Hom.tet]
    rw [← specFtag_hom vx 0 (ftagLocal flag junk t) t, ← hf]
  · intro h63
    simp only [TagsInherited, Hom.tet]
    rw [kid_tag h1 h2 hx h63, specTag_hom]
    have : ftagLocal flag junk t = fun f => stripRef (t.ftag.getD f 0) := by
      funext f; simp only [ftagLocal, if_neg h63]
    rw [this]
  · intro hl
    simp only [OriInherited, Hom.tet]
    rw [← specOri_hom vx 0 (ftagLocal flag junk t) t, ← kid_ori h1 h2 hx]
    rintro ⟨h3, hnil⟩
    refine hl ⟨h3, ?_⟩
    have hq : queries flag = [((cfg3op flag).L 0, (cfg3op flag).L 3),
        ((cfg3op flag).L 1, (cfg3op flag).L 2)] := by
      simp only [threeOp, List.mem_cons, List.not_mem_nil, or_false] at h3
      rcases h3 with h | h | h | h | h | h | h | h | h | h | h | h <;> subst h <;> rfl
    rw [csOf, hq, List.filter_eq_nil_iff] at hnil
    have a := hnil ((cfg3op flag).L 0, (cfg3op flag).L 3) (by simp)
    have b := hnil ((cfg3op flag).L 1, (cfg3op flag).L 2) (by simp)
    simp only [cmpOf, decide_eq_true_eq, not_lt] at a b
    exact ⟨a, b⟩

/-- When the six edges are split, the edges of the children that lie along an edge of the parent
get its tag and the edges inside the parent get no tag. -/
theorem split6_tags_partial {flag : Nat} (h63 : flag = 63) {junk : Nat → BitVec 16} {vx : Nat → Nat} {t : CTet}
    {ch : List CTet} (wf : WF t) (h : split flag junk vx t = some ch) :
    ∃ pss : List (List Pos), List.Forall₂ (fun ps x =>
      OnSplitEdges flag ps ∧ Child t vx 0 ps x ∧ x.tag.length = 6 ∧ ∀ e < 6,
        (∀ e', edgeCarrier ps e = .edge e' → x.tag.getD e 0 = t.tag.getD e' 0) ∧
        (edgeCarrier ps e = .inside → x.tag.getD e 0 = 0)) pss ch := by
  obtain ⟨⟨h1, h2⟩, rfl⟩ := split_kids wf h
  refine ⟨(kids flag (csOf flag t.v)).map (·.v), ?_⟩
  rw [List.forall₂_map_left_iff, List.forall₂_map_right_iff, List.forall₂_same]
  intro x hx
  obtain ⟨h4, hp⟩ := kid_vert h1 h2 hx
  obtain ⟨he, hr, hf⟩ := kid_main h1 h2 hx
  refine ⟨hp, ⟨h4, rfl, ?_, ?_, ?_⟩, ?_⟩
  · simp only [Hom.tet]
    rw [← specEdg_hom vx 0 (ftagLocal flag junk t) t, ← he]
  · simp only [Hom.tet]
    rw [← specRef_hom vx 0 (ftagLocal flag junk t) t, ← hr]
  · simp only [Hom.tet]
    rw [← specFtag_hom vx 0 (ftagLocal flag junk t) t, ← hf]
  have hr := forRuns_spec runs_tag6 h1 h2 (cmpOf fun i => t.v.getD i 0)
  simp only [h63, bne_self_eq_false, Bool.false_or, List.all_eq_true, Bool.and_eq_true,
    decide_eq_true_eq] at hr
  rw [← h63] at hr
  obtain ⟨hl, hr⟩ := hr x hx
  refine ⟨by simp only [Hom.tet, List.length_map, hl], fun e he6 => ?_⟩
  have hr := hr e (List.mem_range.2 he6)
  have hm : ∀ {y : Sym}, x.tag.getD e .one = y →
      ((hom flag junk vx t).tet x).tag.getD e 0 = (hom flag junk vx t).fT y := by
    intro y hy
    rw [← hy]
    exact List.getD_map x.tag Sym.one (hom flag junk vx t).fT
  constructor
  · intro e' hc
    simp only [hc, decide_eq_true_eq] at hr
    exact hm hr
  · intro hc
    simp only [hc, decide_eq_true_eq] at hr
    exact hm hr

example : WF tetEx ∧ (split 13 (fun _ => 0) vxEx tetEx).map List.length = some 5 ∧
    ¬ LosesOri 13 tetEx.v := by
  refine ⟨tetEx_wf, by decide +kernel, ?_⟩
  unfold LosesOri
  decide

/-- A place is determined by the number of its vertex, for the sample tetrahedron. -/
theorem kid_mem_split {flag : Nat} {junk : Nat → BitVec 16} {vx : Nat → Nat} {t : CTet}
    {ch : List CTet} (wf : WF t) (h : split flag junk vx t = some ch) {x : Tet Pos Sym Sym Sym}
    (hx : x ∈ kids flag (csOf flag t.v)) : (hom flag junk vx t).tet x ∈ ch := by
  rw [(split_kids wf h).2]
  exact List.mem_map_of_mem hx

theorem val_inj_ex {p q : Pos}
    (hp : (∃ i < 4, p = .corner i) ∨ ∃ e < 6, p = .mid e)
    (hq : (∃ i < 4, q = .corner i) ∨ ∃ e < 6, q = .mid e)
    (h : val tetEx vxEx 0 p = val tetEx vxEx 0 q) : p = q := by
  have hv : ∀ i < 4, tetEx.v.getD i 0 < 100 := by decide
  have hi : ∀ i < 4, ∀ j < 4, tetEx.v.getD i 0 = tetEx.v.getD j 0 → i = j := by decide
  rcases hp with ⟨i, hi4, rfl⟩ | ⟨e, he, rfl⟩ <;> rcases hq with ⟨j, hj4, rfl⟩ | ⟨e', he', rfl⟩ <;>
    simp only [val, vxEx] at h
  · rw [hi i hi4 j hj4 h]
  · have := hv i hi4; omega
  · have := hv j hj4; omega
  · congr 1; omega

theorem places_inj_ex {flag : Nat} {ps qs : List Pos} (hp : OnSplitEdges flag ps)
    (hq : OnSplitEdges flag qs)
    (h : ps.map (val tetEx vxEx 0) = qs.map (val tetEx vxEx 0)) : ps = qs := by
  induction ps generalizing qs with
  | nil => cases qs with
    | nil => rfl
    | cons _ _ => cases h
  | cons p ps ih =>
    cases qs with
    | nil => cases h
    | cons q qs =>
      simp only [List.map_cons, List.cons.injEq] at h
      have w : ∀ {r : Pos} {l : List Pos}, OnSplitEdges flag l → r ∈ l →
          (∃ i < 4, r = .corner i) ∨ ∃ e < 6, r = .mid e := by
        intro r l hl hr
        rcases hl r hr with h | ⟨e, he, _, rfl⟩
        · exact .inl h
        · exact .inr ⟨e, he, rfl⟩
      rw [val_inj_ex (w hp (by simp)) (w hq (by simp)) h.1,
        ih (fun r hr => hp r (by simp [hr])) (fun r hr => hq r (by simp [hr])) h.2]

/-- Decidable form of `OnSplitEdges` for the examples. -/
theorem onSplit_of {flag : Nat} {ps : List Pos}
    (h : (ps.all fun
      | .corner i => decide (i < 4)
      | .mid e => decide (e < 6) && flag.testBit e
      | .centre => false) = true) : OnSplitEdges flag ps := by
  intro p hp
  rw [List.all_eq_true] at h
  have := h p hp
  cases p with
  | corner i => exact .inl ⟨i, by simpa using this, rfl⟩
  | mid e =>
    simp only [Bool.and_eq_true, decide_eq_true_eq] at this
    exact .inr ⟨e, this.1, this.2, rfl⟩
  | centre => cases this

/-- The second child of the sample when edges 0, 1 and 4 are split. -/
def kidBad : Tet Pos Sym Sym Sym := (kids 19 (csOf 19 tetEx.v)).getD 1 symTet

/-- `split3op` does not transfer the orientation of a boundary face to one of the children. -/
theorem split3op_ori_wrong : ∃ ch, split 19 (fun _ => 0) vxEx tetEx = some ch ∧ ∃ x ∈ ch,
    ∀ ps, OnSplitEdges 19 ps → Child tetEx vxEx 0 ps x → ¬ OriInherited tetEx ps x := by
  obtain ⟨ch, h⟩ := split_total (flag := 19) (by decide) (by decide) (fun _ => 0) vxEx tetEx
  refine ⟨ch, h, ?_⟩
  refine ⟨(hom 19 (fun _ => 0) vxEx tetEx).tet kidBad, kid_mem_split tetEx_wf h ?_, ?_⟩
  · exact (by decide +kernel : kidBad ∈ kids 19 (csOf 19 tetEx.v))
  · intro ps hp hc ho
    have hv : kidBad.v = [.mid 0, .mid 4, .mid 1, .corner 3] := by decide +kernel
    have ht : kidBad.ori = [.face 0, .one, .one, .one] := by decide +kernel
    have : ps = kidBad.v := by
      refine places_inj_ex hp ?_ ?_
      · rw [hv]
        exact onSplit_of (by decide +kernel)
      have := hc.v
      simp only [Hom.tet, homC] at this
      rw [← this]
    rw [OriInherited, this, hv] at ho
    simp only [Hom.tet, ht, List.map_cons, List.map_nil] at ho
    exact absurd (show true = false from congrArg (·.getD 2 false) ho) (by decide)

/-- The seventh child when all the edges are split. -/
def kidBad6 : Tet Pos Sym Sym Sym := (kids 63 (csOf 63 tetEx.v)).getD 6 symTet

/-- When the six edges are split, one of the children does not inherit its edge tags, whatever the
uninitialised array contains. -/
theorem split6_tags_wrong (junk : Nat → BitVec 16) :
    ∃ ch, split 63 junk vxEx tetEx = some ch ∧ ∃ x ∈ ch,
    ∀ ps, OnSplitEdges 63 ps → Child tetEx vxEx 0 ps x → ¬ TagsInherited tetEx ps x := by
  obtain ⟨ch, h⟩ := split_total (flag := 63) (by decide) (by decide) junk vxEx tetEx
  refine ⟨ch, h, ?_⟩
  refine ⟨(hom 63 junk vxEx tetEx).tet kidBad6, kid_mem_split tetEx_wf h ?_, ?_⟩
  · exact (by decide +kernel : kidBad6 ∈ kids 63 (csOf 63 tetEx.v))
  · intro ps hp hc ho
    have hv : kidBad6.v = [.mid 2, .mid 3, .mid 1, .mid 5] := by decide +kernel
    have ht : kidBad6.tag = [.zero, .strip 1, .strip 1, .strip 3, .strip 0, .strip 3] := by
      decide +kernel
    have : ps = kidBad6.v := by
      refine places_inj_ex hp ?_ ?_
      · rw [hv]
        exact onSplit_of (by decide +kernel)
      have := hc.v
      simp only [Hom.tet, homC] at this
      rw [← this]
    rw [TagsInherited, this, hv] at ho
    simp only [Hom.tet, ht, List.map_cons, List.map_nil] at ho
    have h3 : stripRef (junk 3) = stripRef (tetEx.ftag.getD 3 0) := congrArg (·.getD 3 0) ho
    have h5 : stripRef (junk 3) = stripRef (tetEx.ftag.getD 1 0) := congrArg (·.getD 5 0) ho
    rw [h3] at h5
    exact absurd h5 (by decide)

/-! ### C47: volumes and orientation -/

section
variable {K : Type} [Field K]

/-- The volumes of the children add up to the volume of the parent, wherever the points of the
split edges are on their edges. -/
theorem split_volume_sum {flag : Nat} {junk : Nat → BitVec 16} {vx : Nat → Nat} {t : CTet}
    {ch : List CTet} (wf : WF t) (h : split flag junk vx t = some ch) {c : Nat → Pt K}
    {s : Nat → K} (hc : PointsOnEdges flag c t.v vx s) :
    (ch.map fun x => volOf c x.v).sum = volOf c t.v := by
  obtain ⟨⟨h1, h2⟩, rfl⟩ := split_kids wf h
  have := kids_volume h1 h2 t.v (fun i => c (t.v.getD i 0)) s
  rw [List.map_map]
  refine Eq.trans ?_ this
  congr 1
  apply List.map_congr_left
  intro x hx
  obtain ⟨h4, hp⟩ := kid_vert h1 h2 hx
  exact volOf_kid hc h4 hp
end

section
variable {K : Type} [Field K] [LinearOrder K] [IsStrictOrderedRing K]

/-- No child is inverted when the edge points are on their edges. -/
theorem split_volume_nonneg {flag : Nat} {junk : Nat → BitVec 16} {vx : Nat → Nat} {t : CTet}
    {ch : List CTet} (wf : WF t) (h : split flag junk vx t = some ch) {c : Nat → Pt K}
    {s : Nat → K} (hc : PointsOnEdges flag c t.v vx s)
    (hs : ∀ e < 6, flag.testBit e = true → 0 ≤ s e ∧ s e ≤ 1) (hV : 0 ≤ volOf c t.v) :
    ∀ x ∈ ch, 0 ≤ volOf c x.v := by
  obtain ⟨⟨h1, h2⟩, rfl⟩ := split_kids wf h
  intro y hy
  obtain ⟨x, hx, rfl⟩ := List.mem_map.1 hy
  obtain ⟨h4, hp⟩ := kid_vert h1 h2 hx
  refine (kid_nonneg (X := fun i => c (t.v.getD i 0)) h1 h2 hs hV hx).trans_eq ?_
  exact (volOf_kid hc h4 hp).symm

/-- Every child of a positively oriented tetrahedron is positively oriented when the edge points
are inside their edges. -/
theorem split_volume_pos {flag : Nat} {junk : Nat → BitVec 16} {vx : Nat → Nat} {t : CTet}
    {ch : List CTet} (wf : WF t) (h : split flag junk vx t = some ch) {c : Nat → Pt K}
    {s : Nat → K} (hc : PointsOnEdges flag c t.v vx s)
    (hs : ∀ e < 6, flag.testBit e = true → 0 < s e ∧ s e < 1) (hV : 0 < volOf c t.v) :
    ∀ x ∈ ch, 0 < volOf c x.v := by
  obtain ⟨⟨h1, h2⟩, rfl⟩ := split_kids wf h
  intro y hy
  obtain ⟨x, hx, rfl⟩ := List.mem_map.1 hy
  obtain ⟨h4, hp⟩ := kid_vert h1 h2 hx
  refine (kid_pos (X := fun i => c (t.v.getD i 0)) h1 h2 hs hV hx).trans_eq ?_
  exact (volOf_kid hc h4 hp).symm
end

example : WF tetEx ∧ (split 55 (fun _ => 0) vxEx tetEx).isSome ∧
    PointsOnEdges 55 (cEx fun e => 1 / (e + 2)) tetEx.v vxEx (fun e => 1 / ((e : ℚ) + 2)) ∧
    0 < volOf (cEx fun e => 1 / ((e : ℚ) + 2)) tetEx.v := by
  refine ⟨tetEx_wf, by decide +kernel, cEx_onEdges 55 _, ?_⟩
  simp only [volOf, vol, tetEx, cEx, List.getD_cons_zero, List.getD_cons_succ]
  norm_num

/-! ### C41: one split edge -/

/-- The half of `t` that contains the end `j` of the split edge and not the end `i`: the vertex
`i` is the new point `m`; the face opposite to `j` is the cut and carries no data; all the other
faces keep their data. -/
structure Half (t : CTet) (i j m : Nat) (x : CTet) : Prop where
  v : x.v = t.v.set i m
  ref : x.ref = t.ref.set j 0
  ftag : x.ftag = t.ftag.set j 0
  ori : x.ori = t.ori.set j true

/-- Symbolic halves. -/
def symHalf (i j e : Nat) (x : Tet Pos Sym Sym Sym) : Bool :=
  decide (x.v = symTet.v.set i (.mid e)) && decide (x.ref = symTet.ref.set j .zero) &&
    decide (x.ftag = symTet.ftag.set j .zero) && decide (x.ori = symTet.ori.set j .one)

theorem runs_half : ∀ e < 6, queries (2 ^ e) = [] ∧ (kids (2 ^ e) []).length = 2 ∧
    ((symHalf (iare.getD e (0, 0)).1 (iare.getD e (0, 0)).2 e ((kids (2 ^ e) []).getD 0 symTet) &&
      symHalf (iare.getD e (0, 0)).2 (iare.getD e (0, 0)).1 e ((kids (2 ^ e) []).getD 1 symTet)) ||
    (symHalf (iare.getD e (0, 0)).2 (iare.getD e (0, 0)).1 e ((kids (2 ^ e) []).getD 0 symTet) &&
      symHalf (iare.getD e (0, 0)).1 (iare.getD e (0, 0)).2 e ((kids (2 ^ e) []).getD 1 symTet)))
    = true := by
  decide +kernel

theorem half_of_sym {flag : Nat} {junk : Nat → BitVec 16} {vx : Nat → Nat} {t : CTet} (wf : WF t)
    {i j e : Nat} {x : Tet Pos Sym Sym Sym} (h : symHalf i j e x = true) :
    Half t i j (vx e) ((hom flag junk vx t).tet x) := by
  simp only [symHalf, Bool.and_eq_true, decide_eq_true_eq] at h
  obtain ⟨⟨⟨h1, h2⟩, h3⟩, h4⟩ := h
  have ht := homC_tet vx 0 (ftagLocal flag junk t) wf
  constructor
  · conv_rhs => rw [← ht]
    simp only [Hom.tet, h1, List.map_set]; rfl
  · conv_rhs => rw [← ht]
    simp only [Hom.tet, h2, List.map_set]; rfl
  · conv_rhs => rw [← ht]
    simp only [Hom.tet, h3, List.map_set]; rfl
  · conv_rhs => rw [← ht]
    simp only [Hom.tet, h4, List.map_set]; rfl

/-- Splitting edge `e` yields the two halves (in one order or the other). -/
theorem split1_halves {e flag : Nat} (he : e < 6) (hf : flag = 2 ^ e) {junk : Nat → BitVec 16}
    {vx : Nat → Nat} {t : CTet} {ch : List CTet} (wf : WF t)
    (h : split flag junk vx t = some ch) :
    ∃ x y, (ch = [x, y] ∨ ch = [y, x]) ∧
      Half t (iare.getD e (0, 0)).1 (iare.getD e (0, 0)).2 (vx e) x ∧
      Half t (iare.getD e (0, 0)).2 (iare.getD e (0, 0)).1 (vx e) y := by
  obtain ⟨hq, hl, hr⟩ := runs_half e he
  rw [← hf] at hq hl hr
  obtain ⟨_, hch⟩ := split_kids wf h
  have hcs : csOf flag t.v = [] := by rw [csOf, hq]; rfl
  rw [hcs] at hch
  revert hl hr hch
  generalize kids flag [] = l
  intro hl hr hch
  match l, hl with
  | [a, b], _ =>
    simp only [List.map_cons, List.map_nil] at hch
    simp only [List.getD_cons_zero, List.getD_cons_succ, Bool.or_eq_true, Bool.and_eq_true] at hr
    rcases hr with ⟨ha, hb⟩ | ⟨ha, hb⟩
    · exact ⟨_, _, .inl hch, half_of_sym wf ha, half_of_sym wf hb⟩
    · exact ⟨_, _, .inr hch, half_of_sym wf hb, half_of_sym wf ha⟩

/-- The volumes of the two halves are the fractions given by the position of the new point. -/
theorem half_volumes {K : Type} [Field K] {e : Nat} (he : e < 6) {t x y : CTet} (wf : WF t)
    {m : Nat} (hx : Half t (iare.getD e (0, 0)).1 (iare.getD e (0, 0)).2 m x)
    (hy : Half t (iare.getD e (0, 0)).2 (iare.getD e (0, 0)).1 m y) {c : Nat → Pt K} {s : K}
    (hc : c m = Pt.lerp (c (t.v.getD (iare.getD e (0, 0)).1 0))
      (c (t.v.getD (iare.getD e (0, 0)).2 0)) s) :
    volOf c x.v = (1 - s) * volOf c t.v ∧ volOf c y.v = s * volOf c t.v := by
  have hv := wf.v
  revert hv hc
  rw [hx.v, hy.v]
  generalize t.v = l
  intro hc hv
  match l, hv with
  | [p, q, r, w], _ =>
    interval_cases e <;>
      simp only [iare, List.getD_cons_zero, List.getD_cons_succ] at hc ⊢ <;>
      simp only [volOf, List.set_cons_zero, List.set_cons_succ, List.getD_cons_zero,
        List.getD_cons_succ, hc, vol, Pt.lerp] <;>
      constructor <;> ring

/-- Membership in a face. -/
theorem mem_faceTri {v : List Nat} {f : Nat} (hf : f < 4) {a : Nat} :
    a ∈ faceTri 0 v f ↔ ∃ i < 4, i ≠ f ∧ a = v.getD i 0 := by
  unfold faceTri
  rw [Multiset.mem_coe, List.mem_map]
  constructor
  · rintro ⟨i, hi, rfl⟩
    refine ⟨i, ?_, ?_, rfl⟩ <;> interval_cases f <;> simp [others] at hi <;> omega
  · rintro ⟨i, hi, hne, rfl⟩
    refine ⟨i, ?_, rfl⟩
    interval_cases f <;> interval_cases i <;> simp [others] at hne ⊢

/-- The two halves share the face through the new vertex, opposite to the ends of the split edge,
and no other one. -/
theorem halves_share_one_face {i j m : Nat} (hi : i < 4) (hj : j < 4) (hij : i ≠ j) {t x y : CTet}
    (wf : WF t) (hd : (m :: t.v).Nodup) (hx : Half t i j m x) (hy : Half t j i m y) {f g : Nat}
    (hf : f < 4) (hg : g < 4) : faceTri 0 x.v f = faceTri 0 y.v g ↔ f = j ∧ g = i := by
  have hv := wf.v
  obtain ⟨hm, hnd⟩ := List.nodup_cons.1 hd
  have hinj : ∀ a < 4, ∀ b < 4, t.v.getD a 0 = t.v.getD b 0 → a = b := by
    intro a ha b hb hab
    rw [List.getD_eq_getElem _ _ (by omega), List.getD_eq_getElem _ _ (by omega)] at hab
    exact (List.Nodup.getElem_inj_iff hnd).1 hab
  have hmem : ∀ a < 4, t.v.getD a 0 ≠ m := by
    intro a ha hh
    apply hm
    rw [← hh, List.getD_eq_getElem _ _ (by omega)]
    exact List.getElem_mem _
  have gx : ∀ a < 4, x.v.getD a 0 = if a = i then m else t.v.getD a 0 := by
    intro a ha
    rw [hx.v, List.getD_eq_getElem _ _ (by rw [List.length_set]; omega), List.getElem_set]
    by_cases h : a = i
    · rw [if_pos h.symm, if_pos h]
    · rw [if_neg (Ne.symm h), if_neg h, List.getD_eq_getElem _ _ (by omega)]
  have gy : ∀ a < 4, y.v.getD a 0 = if a = j then m else t.v.getD a 0 := by
    intro a ha
    rw [hy.v, List.getD_eq_getElem _ _ (by rw [List.length_set]; omega), List.getElem_set]
    by_cases h : a = j
    · rw [if_pos h.symm, if_pos h]
    · rw [if_neg (Ne.symm h), if_neg h, List.getD_eq_getElem _ _ (by omega)]
  constructor
  · intro heq
    constructor
    · by_contra hne
      have h1 : t.v.getD j 0 ∈ faceTri 0 x.v f :=
        (mem_faceTri hf).2 ⟨j, hj, Ne.symm hne, by rw [gx j hj, if_neg (Ne.symm hij)]⟩
      rw [heq, mem_faceTri hg] at h1
      obtain ⟨a, ha, _, hav⟩ := h1
      rw [gy a ha] at hav
      split_ifs at hav with h
      · exact hmem j hj hav
      · exact h (hinj j hj a ha hav).symm
    · by_contra hne
      have h1 : t.v.getD i 0 ∈ faceTri 0 y.v g :=
        (mem_faceTri hg).2 ⟨i, hi, Ne.symm hne, by rw [gy i hi, if_neg hij]⟩
      rw [← heq, mem_faceTri hf] at h1
      obtain ⟨a, ha, _, hav⟩ := h1
      rw [gx a ha] at hav
      split_ifs at hav with h
      · exact hmem i hi hav
      · exact h (hinj i hi a ha hav).symm
  · rintro ⟨rfl, rfl⟩
    have hl : t.v = [t.v.getD 0 0, t.v.getD 1 0, t.v.getD 2 0, t.v.getD 3 0] := list4 0 hv
    rw [hx.v, hy.v, hl]
    generalize t.v.getD 0 0 = p, t.v.getD 1 0 = q, t.v.getD 2 0 = r, t.v.getD 3 0 = w
    interval_cases f <;> interval_cases g <;> first
      | exact absurd rfl hij
      | (simp only [faceTri, others, List.getD_cons_zero, List.getD_cons_succ, List.set_cons_zero,
          List.set_cons_succ, List.map_cons, List.map_nil]
         done)
      | (simp only [faceTri, others, List.getD_cons_zero, List.getD_cons_succ, List.set_cons_zero,
          List.set_cons_succ, List.map_cons, List.map_nil]
         rw [Multiset.coe_eq_coe, List.perm_iff_count]
         intro a
         simp only [List.count_cons, List.count_nil]
         ring)

/-- C41.  Splitting edge `e` at a point of the edge yields two tetrahedra whose volumes add up to
the volume of the original, positively oriented if the original is and the point is inside the
edge; they share exactly the face through the new vertex, which carries no boundary data, and
inherit the data of the remaining faces. -/
theorem split1_two_halves {K : Type} [Field K] [LinearOrder K] [IsStrictOrderedRing K]
    {e flag : Nat} (he : e < 6) (hf : flag = 2 ^ e) {junk : Nat → BitVec 16}
    {vx : Nat → Nat} {t : CTet} {ch : List CTet} (wf : WF t) (hd : (vx e :: t.v).Nodup)
    (h : split flag junk vx t = some ch) {c : Nat → Pt K} {s : Nat → K}
    (hc : PointsOnEdges flag c t.v vx s) :
    ∃ x y, (ch = [x, y] ∨ ch = [y, x]) ∧
      Half t (iare.getD e (0, 0)).1 (iare.getD e (0, 0)).2 (vx e) x ∧
      Half t (iare.getD e (0, 0)).2 (iare.getD e (0, 0)).1 (vx e) y ∧
      volOf c x.v + volOf c y.v = volOf c t.v ∧
      (0 < volOf c t.v → 0 < s e → s e < 1 → 0 < volOf c x.v ∧ 0 < volOf c y.v) ∧
      ∀ f < 4, ∀ g < 4, faceTri 0 x.v f = faceTri 0 y.v g ↔
        f = (iare.getD e (0, 0)).2 ∧ g = (iare.getD e (0, 0)).1 := by
  obtain ⟨x, y, ho, hx, hy⟩ := split1_halves he hf wf h
  have hlt : (iare.getD e (0, 0)).1 < 4 ∧ (iare.getD e (0, 0)).2 < 4 ∧
      (iare.getD e (0, 0)).1 ≠ (iare.getD e (0, 0)).2 := by
    interval_cases e <;> decide
  have hb : flag.testBit e = true := by rw [hf]; interval_cases e <;> rfl
  obtain ⟨v1, v2⟩ := half_volumes he wf hx hy (hc e he hb)
  refine ⟨x, y, ho, hx, hy, by rw [v1, v2]; ring, ?_, ?_⟩
  · intro hV h0 h1
    rw [v1, v2]
    exact ⟨mul_pos (sub_pos.2 h1) hV, mul_pos h0 hV⟩
  · exact fun f hf g hg => halves_share_one_face hlt.1 hlt.2.1 hlt.2.2 wf hd hx hy hf hg

example : (vxEx 3 :: tetEx.v).Nodup ∧ (split (2 ^ 3) (fun _ => 0) vxEx tetEx).isSome ∧
    PointsOnEdges (2 ^ 3) (cEx fun _ => 1 / 3) tetEx.v vxEx (fun _ => 1 / 3) :=
  ⟨by decide, by decide +kernel, cEx_onEdges _ _⟩

end Mmg.Split3
