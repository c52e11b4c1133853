/-
  Helper lemmas: from the symbolic runs to the split of an arbitrary tetrahedron.
-/
import Verif.Split3Vol
import Verif.Split3RunsF
import Mathlib.Data.Multiset.Bind
import Mathlib.Data.Multiset.Sort

namespace Mmg.Split3

/-- Outcome of the comparisons on the vertices `v`. -/
def csOf (flag : Nat) (v : List Nat) : List (Nat × Nat) :=
  (queries flag).filter fun p => cmpOf (fun i => v.getD i 0) p.1 p.2

theorem not_mem_of_range {flag : Nat} (hf : ¬ (1 ≤ flag ∧ flag < 64)) (l : List Nat)
    (h : (l.all fun x => decide (1 ≤ x ∧ x < 64)) = true) : flag ∉ l := by
  intro hm
  rw [List.all_eq_true] at h
  exact hf (by simpa using h flag hm)

theorem prog_range {flag : Nat} {lt : Cmp} {p : Prog} (h : prog flag lt = some p) :
    1 ≤ flag ∧ flag < 64 := by
  by_contra hf
  have h1 : flag ∉ [1, 2, 4, 8, 16, 32] := not_mem_of_range hf _ (by decide)
  have h2 : flag ∉ [48, 24, 40, 6, 34, 36, 20, 5, 17, 9, 3, 10] := 
    not_mem_of_range hf _ (by decide)
  have h3 : flag ∉ [33, 18, 12] := not_mem_of_range hf _ (by decide)
  have h4 : flag ∉ [11, 21, 38, 56] := not_mem_of_range hf _ (by decide)
  have h5 : flag ∉ [7, 25, 42, 52] := not_mem_of_range hf _ (by decide)
  have h6 : flag ∉ [35, 19, 13, 37, 22, 28, 26, 14, 49, 50, 44, 41] := 
    not_mem_of_range hf _ (by decide)
  have h7 : flag ∉ [23, 29, 53, 60, 57, 58, 27, 15, 43, 39, 54, 46] := 
    not_mem_of_range hf _ (by decide)
  have h8 : flag ∉ [30, 45, 51] := not_mem_of_range hf _ (by decide)
  have h9 : flag ∉ [62, 61, 59, 55, 47, 31] := 
    not_mem_of_range hf _ (by decide)
  have h10 : flag ≠ 63 := by omega
  simp only [prog, if_neg h1, if_neg h2, if_neg h3, if_neg h4, if_neg h5, if_neg h6, if_neg h7,
    if_neg h8, if_neg h9, if_neg h10] at h
  cases h

/-- Interpretation of the symbolic values of a split. -/
abbrev hom (flag : Nat) (junk : Nat → BitVec 16) (vx : Nat → Nat) (t : CTet) :
    Hom Pos Sym Sym Sym Nat (BitVec 16) Int Bool := homC vx 0 (ftagLocal flag junk t) t

theorem split_kids {flag : Nat} {junk : Nat → BitVec 16} {vx : Nat → Nat} {t : CTet}
    {ch : List CTet} (wf : WF t) (h : split flag junk vx t = some ch) :
    (1 ≤ flag ∧ flag < 64) ∧
      ch = (kids flag (csOf flag t.v)).map (hom flag junk vx t).tet := by
  unfold split at h
  cases hp : prog flag (cmpOf fun i => t.v.getD i 0) with
  | none => rw [hp] at h; cases h
  | some p =>
    refine ⟨prog_range hp, ?_⟩
    rw [hp] at h
    injection h with h
    have e := (prog_filter flag (cmpOf fun i => t.v.getD i 0)).1
    simp only [kids, csOf, e, hp]
    rw [← h, ← exec_map _ (homC_src flag junk vx 0 t), homC_tet _ _ _ wf]

/-- All the sets of split edges are handled. -/
theorem split_some {flag : Nat} (h1 : 1 ≤ flag) (h2 : flag < 64) (junk : Nat → BitVec 16)
    (vx : Nat → Nat) (t : CTet) : ∃ ch, split flag junk vx t = some ch := by
  have := forRuns_spec runs_some h1 h2 (cmpOf fun i => t.v.getD i 0)
  rw [(prog_filter flag _).1, Option.isSome_iff_exists] at this
  obtain ⟨p, hp⟩ := this
  exact ⟨_, by unfold split; rw [hp]; rfl⟩

section
variable {flag : Nat} (h1 : 1 ≤ flag) (h2 : flag < 64) {v : List Nat}
  {x : Tet Pos Sym Sym Sym} (hx : x ∈ kids flag (csOf flag v))
include h1 h2 hx

theorem kid_vert : x.v.length = 4 ∧ OnSplitEdges flag x.v := by
  have := forRuns_spec runs_vert h1 h2 (cmpOf fun i => v.getD i 0)
  rw [List.all_eq_true] at this
  have := this x hx
  simp only [okVert, Bool.and_eq_true, beq_iff_eq, List.all_eq_true] at this
  refine ⟨this.1, fun p hp => ?_⟩
  have := this.2 p hp
  cases p with
  | corner i => exact .inl ⟨i, by simpa using this, rfl⟩
  | mid e =>
    simp only [Bool.and_eq_true, decide_eq_true_eq] at this
    exact .inr ⟨e, this.1, this.2, rfl⟩
  | centre => cases this

theorem kid_main : x.edg = specEdg .edge .zero x.v ∧ x.ref = specFace .face .zero x.v ∧
    x.ftag = specFace .face .zero x.v := by
  have := forRuns_spec runs_main h1 h2 (cmpOf fun i => v.getD i 0)
  rw [List.all_eq_true] at this
  have := this x hx
  simp only [okMain, Bool.and_eq_true, decide_eq_true_eq] at this
  exact ⟨this.1.1, this.1.2, this.2⟩

theorem kid_tag (h63 : flag ≠ 63) : x.tag = specTag .edge .strip .zero x.v := by
  have := forRuns_spec runs_tag h1 h2 (cmpOf fun i => v.getD i 0)
  simp only [Bool.or_eq_true, beq_iff_eq, h63, false_or, List.all_eq_true,
    decide_eq_true_eq] at this
  exact this x hx

theorem kid_ori (h3 : ¬ (flag ∈ threeOp ∧ csOf flag v = [])) :
    x.ori = specFace .face .one x.v := by
  have := forRuns_spec runs_ori h1 h2 (cmpOf fun i => v.getD i 0)
  simp only [Bool.or_eq_true, Bool.and_eq_true, List.all_eq_true,
    decide_eq_true_eq] at this
  rcases this with h | h
  · exact absurd h h3
  · exact h x hx

theorem kid_occ {e : Nat} (he : e < 6) : occ x.v e ≤ 1 := by
  have := forRuns_spec runs_occ h1 h2 (cmpOf fun i => v.getD i 0)
  simp only [List.all_eq_true, decide_eq_true_eq] at this
  exact this x hx e (List.mem_range.2 he)

end

/-! ### Attributes -/

section
variable (vx : Nat → Nat) (ib : Nat) (fs : Nat → BitVec 16) (t : CTet)

theorem specEdg_hom (ps : List Pos) :
    (specEdg Sym.edge .zero ps).map (homC vx ib fs t).fE = specEdg (t.edg.getD · 0) 0 ps := by
  simp only [specEdg, List.map_map]
  apply List.map_congr_left
  intro e _
  simp only [Function.comp]
  cases edgeCarrier ps e <;> rfl

theorem specRef_hom (ps : List Pos) :
    (specFace Sym.face .zero ps).map (homC vx ib fs t).fE = specFace (t.ref.getD · 0) 0 ps := by
  simp only [specFace, List.map_map]
  apply List.map_congr_left
  intro e _
  simp only [Function.comp]
  cases faceCarrier ps e <;> rfl

theorem specFtag_hom (ps : List Pos) :
    (specFace Sym.face .zero ps).map (homC vx ib fs t).fT = specFace (t.ftag.getD · 0) 0 ps := by
  simp only [specFace, List.map_map]
  apply List.map_congr_left
  intro e _
  simp only [Function.comp]
  cases faceCarrier ps e <;> rfl

theorem specOri_hom (ps : List Pos) :
    (specFace Sym.face .one ps).map (homC vx ib fs t).fB =
      specFace (t.ori.getD · false) true ps := by
  simp only [specFace, List.map_map]
  apply List.map_congr_left
  intro e _
  simp only [Function.comp]
  cases faceCarrier ps e <;> rfl

theorem specTag_hom (ps : List Pos) :
    (specTag Sym.edge .strip .zero ps).map (homC vx ib fs t).fT =
      specTag (t.tag.getD · 0) fs 0 ps := by
  simp only [specTag, List.map_map]
  apply List.map_congr_left
  intro e _
  simp only [Function.comp]
  cases edgeCarrier ps e <;> rfl

end

/-! ### Volumes -/

section
variable {K : Type} [Field K]

theorem edgesOf_nodup (f : Nat) : (edgesOf f).Nodup := List.nodup_range.filter _

theorem mem_edgesOf {f e : Nat} : e ∈ edgesOf f ↔ e < 6 ∧ f.testBit e = true := by
  simp [edgesOf]

/-- The location of the vertex at a place. -/
theorem place_val {flag : Nat} {c : Nat → Pt K} {t : CTet} {vx : Nat → Nat} {s : Nat → K}
    (hc : PointsOnEdges flag c t.v vx s) {p : Pos}
    (hp : (∃ i < 4, p = .corner i) ∨ ∃ e < 6, flag.testBit e = true ∧ p = .mid e) :
    c (val t vx 0 p) = place (fun i => c (t.v.getD i 0)) s p := by
  rcases hp with ⟨i, _, rfl⟩ | ⟨e, he, hb, rfl⟩
  · rfl
  · simp only [val, place]
    exact hc e he hb

theorem volOf_kid {flag : Nat} {c : Nat → Pt K} {t : CTet} {vx : Nat → Nat} {s : Nat → K}
    (hc : PointsOnEdges flag c t.v vx s) {ps : List Pos} (h4 : ps.length = 4)
    (hp : OnSplitEdges flag ps) :
    volOf c (ps.map (val t vx 0)) = volAt (fun i => c (t.v.getD i 0)) ps s := by
  match ps, h4 with
  | [p0, p1, p2, p3], _ =>
    have e0 := place_val hc (hp p0 (by simp))
    have e1 := place_val hc (hp p1 (by simp))
    have e2 := place_val hc (hp p2 (by simp))
    have e3 := place_val hc (hp p3 (by simp))
    simp only [volOf, volAt, List.map_cons, List.map_nil, List.getD_cons_zero,
      List.getD_cons_succ, e0, e1, e2, e3]

theorem onSplit_ends {flag : Nat} {ps : List Pos} (hp : OnSplitEdges flag ps) :
    ∀ p ∈ ps, (∃ i < 4, p = .corner i) ∨ ∃ e < 6, e ∈ edgesOf flag ∧ p = .mid e := by
  intro p h
  rcases hp p h with h | ⟨e, he, hb, rfl⟩
  · exact .inl h
  · exact .inr ⟨e, he, mem_edgesOf.2 ⟨he, hb⟩, rfl⟩

theorem sum_intCast_mul {ι : Type} (l : List ι) (f : ι → Int) (w : K) :
    (l.map fun i => ((f i : Int) : K) * w).sum = (((l.map f).sum : Int) : K) * w := by
  induction l with
  | nil => simp
  | cons a l ih => simp only [List.map_cons, List.sum_cons, ih, Int.cast_add]; ring

theorem kids_volume {flag : Nat} (h1 : 1 ≤ flag) (h2 : flag < 64) (v : List Nat) (X : Nat → Pt K)
    (s : Nat → K) :
    ((kids flag (csOf flag v)).map fun x => volAt X x.v s).sum =
      vol (X 0) (X 1) (X 2) (X 3) := by
  refine const_of_ends (F := fun s => ((kids flag (csOf flag v)).map fun x => volAt X x.v s).sum)
    (edgesOf flag) (edgesOf_nodup flag) ?_ s ?_
  · intro e he
    refine sum_aff _ _ fun x hx => ?_
    exact volAt_aff X (kid_vert h1 h2 hx).1 (kid_occ h1 h2 hx (mem_edgesOf.1 he).1)
  · intro b hb s' hs' _
    have : ((kids flag (csOf flag v)).map fun x => volAt X x.v s') =
        (kids flag (csOf flag v)).map fun x =>
          (sgnOf b x.v : K) * vol (X 0) (X 1) (X 2) (X 3) := by
      apply List.map_congr_left
      intro x hx
      obtain ⟨h4, hp⟩ := kid_vert h1 h2 hx
      exact volAt_ends X hs' h4 (onSplit_ends hp)
    simp only [this, sum_intCast_mul]
    have hr := forRuns_spec runs_sum h1 h2 (cmpOf fun i => v.getD i 0)
    simp only [List.all_eq_true, decide_eq_true_eq] at hr
    have := hr b hb
    unfold csOf
    rw [this]
    simp
end

section
variable {K : Type} [Field K] [LinearOrder K] [IsStrictOrderedRing K]

theorem kid_nonneg {flag : Nat} (h1 : 1 ≤ flag) (h2 : flag < 64) {v : List Nat} {X : Nat → Pt K}
    {s : Nat → K} (hs : ∀ e < 6, flag.testBit e = true → 0 ≤ s e ∧ s e ≤ 1)
    (hV : 0 ≤ vol (X 0) (X 1) (X 2) (X 3)) {x : Tet Pos Sym Sym Sym}
    (hx : x ∈ kids flag (csOf flag v)) : 0 ≤ volAt X x.v s := by
  obtain ⟨h4, hp⟩ := kid_vert h1 h2 hx
  refine nonneg_of_ends (edgesOf flag) (edgesOf_nodup flag) ?_ s
    (fun e he => hs e (mem_edgesOf.1 he).1 (mem_edgesOf.1 he).2) ?_
  · exact fun e he => volAt_aff X h4 (kid_occ h1 h2 hx (mem_edgesOf.1 he).1)
  · intro b hb s' hs' _
    rw [volAt_ends X hs' h4 (onSplit_ends hp)]
    have hr := forRuns_spec runs_nonneg h1 h2 (cmpOf fun i => v.getD i 0)
    simp only [List.all_eq_true, decide_eq_true_eq] at hr
    have := hr b hb x hx
    exact mul_nonneg (by exact_mod_cast this) hV

theorem kid_pos {flag : Nat} (h1 : 1 ≤ flag) (h2 : flag < 64) {v : List Nat} {X : Nat → Pt K}
    {s : Nat → K} (hs : ∀ e < 6, flag.testBit e = true → 0 < s e ∧ s e < 1)
    (hV : 0 < vol (X 0) (X 1) (X 2) (X 3)) {x : Tet Pos Sym Sym Sym}
    (hx : x ∈ kids flag (csOf flag v)) : 0 < volAt X x.v s := by
  obtain ⟨h4, hp⟩ := kid_vert h1 h2 hx
  refine pos_of_ends (edgesOf flag) (edgesOf_nodup flag) ?_ s
    (fun e he => hs e (mem_edgesOf.1 he).1 (mem_edgesOf.1 he).2) ?_ ?_
  · exact fun e he => volAt_aff X h4 (kid_occ h1 h2 hx (mem_edgesOf.1 he).1)
  · intro b hb s' hs' _
    rw [volAt_ends X hs' h4 (onSplit_ends hp)]
    have hr := forRuns_spec runs_nonneg h1 h2 (cmpOf fun i => v.getD i 0)
    simp only [List.all_eq_true, decide_eq_true_eq] at hr
    have := hr b hb x hx
    exact mul_nonneg (by exact_mod_cast this) hV.le
  · have hr := forRuns_spec runs_pos h1 h2 (cmpOf fun i => v.getD i 0)
    simp only [List.all_eq_true, List.any_eq_true, decide_eq_true_eq] at hr
    obtain ⟨b, hb, hpos⟩ := hr x hx
    refine ⟨b, hb, fun s' hs' _ => ?_⟩
    rw [volAt_ends X hs' h4 (onSplit_ends hp)]
    exact mul_pos (by exact_mod_cast hpos) hV
end

/-! ### Simulations -/

theorem simTet_map {V V' : Type} (g : V → V') (c : Cfg) (vx : Nat → V) (v : List V)
    (l : List (Nat × Nat)) :
    (simTet c vx v l).map g = simTet c (fun e => g (vx e)) (v.map g) l := by
  unfold simTet
  induction l generalizing v with
  | nil => rfl
  | cons a l ih => simp only [List.foldl_cons, ih, List.map_set]

theorem sim_kids {flag : Nat} (h1 : 1 ≤ flag) (h2 : flag < 64) (vx : Nat → Nat) {t : CTet}
    (wf : WF t) :
    simTets flag vx t.v =
      some ((kids flag (csOf flag t.v)).map fun x => x.v.map (val t vx 0)) := by
  have hr := forRuns_spec runs_sim h1 h2 (cmpOf fun i => t.v.getD i 0)
  rw [decide_eq_true_eq, (prog_filter flag _).2] at hr
  unfold simTets
  cases hc : simList flag (cmpOf fun i => t.v.getD i 0) with
  | none => rw [hc] at hr; cases hr
  | some cl =>
    rw [hc] at hr
    simp only [Option.map_some, Option.some.injEq] at hr ⊢
    have hv : t.v = symV.map (val t vx 0) := list4 0 wf.v
    have : (cl.2.map (simTet cl.1 Pos.mid symV)).map (List.map (val t vx 0)) =
        ((kids flag (csOf flag t.v)).map (·.v)).map (List.map (val t vx 0)) := by
      rw [hr]; rfl
    rw [List.map_map, List.map_map] at this
    refine Eq.trans ?_ this
    apply List.map_congr_left
    intro l _
    conv_lhs => rw [hv]
    simp only [Function.comp, simTet_map]
    rfl

end Mmg.Split3
