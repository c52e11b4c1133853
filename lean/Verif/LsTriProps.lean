/-
  C75: areas, references.
-/
import Verif.LsTri

namespace Mmg.Ls2
open Mmg.Split3 Mmg.Ls3

section
variable {K : Type} [Field K] [LinearOrder K] [IsStrictOrderedRing K]
  {surf keep : Bool} {E : Env} {eps e2 : K} {c : Nat → Pt K} {sol : Nat → K} {r : Nat → Int} {ms : List Tri}
  {alloc : Bool}

/-- **C75.** The result is obtained by cutting each triangle in pieces: the area vector of a piece is
a positive multiple of that of the triangle (the piece is in the same plane, not degenerate and has the
same orientation) and the sum of the factors is 1. -/
theorem C75_area (G : Given E eps e2 sol ms)
    (h : (cuttri surf E alloc eps e2 c sol r ms).ret ≠ 0) :
    ∃ pieces : Tri → List Tri, (cuttri surf E alloc eps e2 c sol r ms).ms = ms.flatMap pieces ∧
      ∀ m ∈ ms, (∀ x ∈ pieces m, x.ref = m.ref) ∧
        ∃ fs : List K, List.Forall₂ (fun x l => 0 < l ∧
          area (cuttri surf E alloc eps e2 c sol r ms).s.c x = scl l (area c m)) (pieces m) fs ∧ fs.sum = 1 := by
  obtain ⟨I, hms, _⟩ := cuttri_spec G h
  have P := I.points G
  refine ⟨_, hms, fun m hm => ⟨fun x hx => (piece_one (surf := surf) G P hm x hx).2.1, ?_⟩⟩
  refine cut3_area (G.wf m hm) (not7 P m) (fun p hp => (P.old m hm p hp).1) ?_
  intro e _ hne
  obtain ⟨t, h1, h2, h3, _⟩ := (P.zero _ _ hne).2
  exact ⟨t, lt_of_lt_of_le G.pos h1, by have := G.pos; linarith, h3⟩

/-! ### References of the points -/

theorem refs_foldl (T : Tab) (l : List (Tri × Nat)) (r : Nat → Int) (p : Nat) :
    (∃ x ∈ l, vxOf T x.1 x.2 ≠ 0 ∧ p = vxOf T x.1 x.2 ∧ 0 < x.1.edg.getD x.2 0 ∧
      l.foldl (fun r x => refs3 (vxOf T x.1) r x) r p = x.1.edg.getD x.2 0) ∨
    ((∀ x ∈ l, vxOf T x.1 x.2 ≠ 0 → p = vxOf T x.1 x.2 → x.1.edg.getD x.2 0 ≤ 0) ∧
      l.foldl (fun r x => refs3 (vxOf T x.1) r x) r p = r p) := by
  induction l generalizing r with
  | nil => right; simp
  | cons y l ih =>
    rw [List.foldl_cons]
    rcases ih (refs3 (vxOf T y.1) r y) with ⟨x, hx, h⟩ | ⟨h1, h2⟩
    · exact .inl ⟨x, List.mem_cons_of_mem _ hx, h⟩
    · rw [h2]
      unfold refs3
      by_cases hc : vxOf T y.1 y.2 ≠ 0 ∧ 0 < y.1.edg.getD y.2 0
      · rw [if_pos hc]
        by_cases hp : p = vxOf T y.1 y.2
        · left
          refine ⟨y, List.mem_cons_self, hc.1, hp, hc.2, ?_⟩
          simp [upd, hp]
        · right
          refine ⟨?_, by simp [upd, hp]⟩
          intro x hx hne hpx
          rcases List.mem_cons.1 hx with rfl | hx
          · exact absurd hpx hp
          · exact h1 x hx hne hpx
      · rw [if_neg hc]
        right
        refine ⟨?_, rfl⟩
        intro x hx hne hpx
        rcases List.mem_cons.1 hx with rfl | hx
        · by_contra hh
          exact hc ⟨hne, not_le.1 hh⟩
        · exact h1 x hx hne hpx

/-- **C75.** References of the points: the new point of an edge with a positive reference gets the
reference of this edge (in one of the triangles having it); all others keep their reference. -/
theorem C75_point_refs (G : Given E eps e2 sol ms)
    (h : (cuttri surf E alloc eps e2 c sol r ms).ret ≠ 0) :
    ∃ pt, EdgePoints E eps c sol ms (cuttri surf E alloc eps e2 c sol r ms).s.c
        (cuttri surf E alloc eps e2 c sol r ms).s.sol pt ∧
      (∀ m ∈ ms, ∀ p ∈ m.v, (cuttri surf E alloc eps e2 c sol r ms).r p = r p) ∧
      ∀ a b, pt a b ≠ 0 →
        (∃ m ∈ ms, ∃ e < 3, (ends m e = (a, b) ∨ ends m e = (b, a)) ∧ 0 < m.edg.getD e 0 ∧
          (cuttri surf E alloc eps e2 c sol r ms).r (pt a b) = m.edg.getD e 0) ∨
        ((∀ m ∈ ms, ∀ e < 3, (ends m e = (a, b) ∨ ends m e = (b, a)) → m.edg.getD e 0 ≤ 0) ∧
          (cuttri surf E alloc eps e2 c sol r ms).r (pt a b) = r (pt a b)) := by
  obtain ⟨I, hms, hr⟩ := cuttri_spec G h
  have P := I.points G
  refine ⟨_, P, ?_, ?_⟩
  · intro m hm p hp
    rw [hr]
    unfold refs
    rcases refs_foldl (cuttri surf E alloc eps e2 c sol r ms).s.tab (edges ms) r p with ⟨x, hx, hne, hpx, _⟩ | ⟨_, h2⟩
    · obtain ⟨q, hq⟩ := P.new _ _ hne
      exact absurd (by rw [hpx] at hp; unfold vxOf at hp; rw [hq] at hp; exact hp) (G.fresh.out q m hm)
    · exact h2
  · intro a b hab
    rw [hr]
    unfold refs
    rcases refs_foldl (cuttri surf E alloc eps e2 c sol r ms).s.tab (edges ms) r
      (((cuttri surf E alloc eps e2 c sol r ms).s.tab.find a b).toNat) with ⟨x, hx, hne, hpx, h0, h1⟩ | ⟨h1, h2⟩
    · left
      obtain ⟨hm, he⟩ := mem_edges.1 hx
      refine ⟨x.1, hm, x.2, he, ?_, h0, h1⟩
      rcases P.inj _ _ _ _ hab hpx with ⟨h1, h2⟩ | ⟨h1, h2⟩
      · left; rw [h1, h2]
      · right; rw [h1, h2]
    · right
      refine ⟨?_, h2⟩
      intro m hm e he hab'
      have key : vxOf (cuttri surf E alloc eps e2 c sol r ms).s.tab m e =
          ((cuttri surf E alloc eps e2 c sol r ms).s.tab.find a b).toNat := by
        unfold vxOf
        rcases hab' with h | h
        · rw [h]
        · rw [h, find_comm]
      exact h1 (m, e) (mem_edges.2 ⟨hm, he⟩) (by rw [key]; exact hab) key.symm

/-! ### The whole step -/

theorem resetTri_given {isoref : Int} {start : Int → Int} (G : Given E eps e2 sol ms) :
    Given E eps e2 sol (if keep then ms else ms.map (resetTri isoref start)) := by
  cases keep
  · refine ⟨G.small, G.pos, G.half, ⟨G.fresh.pos, G.fresh.inj, ?_⟩, ?_, ?_, G.mem⟩
    · intro i m hm
      obtain ⟨m', hm', rfl⟩ := List.mem_map.1 hm
      exact G.fresh.out i m' hm'
    · intro m hm
      obtain ⟨m', hm', rfl⟩ := List.mem_map.1 hm
      obtain ⟨h1, h2, h3, h4⟩ := G.wf m' hm'
      exact ⟨h1, h2, by simp only [resetTri, List.length_map]; exact h3, h4⟩
    · intro m hm
      obtain ⟨m', hm', rfl⟩ := List.mem_map.1 hm
      exact G.vals m' hm'
  · exact G

/-- Reference and references of the edges with which the step is started. -/
def Reset (keep : Bool) (isoref : Int) (start : Int → Int) (m m' : Tri) : Prop :=
  m'.v = m.v ∧ m'.tag = m.tag ∧ m'.edg.length = m.edg.length ∧
    if keep then m'.ref = m.ref ∧ m'.edg = m.edg
    else m'.ref = start m.ref ∧ ∀ i < m.edg.length,
      m'.edg.getD i 0 = if m.edg.getD i 0 = isoref then 0 else m.edg.getD i 0

theorem reset_ex {isoref : Int} {start : Int → Int} {m' : Tri}
    (h : m' ∈ (if keep then ms else ms.map (resetTri isoref start))) : ∃ m ∈ ms, Reset keep isoref start m m' := by
  cases keep
  · obtain ⟨m, hm, rfl⟩ := List.mem_map.1 h
    refine ⟨m, hm, rfl, rfl, by simp [resetTri], rfl, ?_⟩
    intro i hi
    simp only [resetTri]
    rw [List.getD_eq_getElem _ _ (by simpa using hi), List.getElem_map, List.getD_eq_getElem _ _ hi]
  · exact ⟨m', h, rfl, rfl, rfl, rfl, rfl⟩

/-- The edge `i` of `x` is on the level set and the opposite vertex is not. -/
def Front (sol : Nat → K) (x : Tri) (i : Nat) : Prop :=
  sol (ends x i).1 = 0 ∧ sol (ends x i).2 = 0 ∧ sol (x.v.getD i 0) ≠ 0

theorem front_iff {sol : Nat → K} {x : Tri} (wf : WF x) {i : Nat} (hi : i < 3) :
    Front sol x i ↔ nzero sol x = 2 ∧ onLs sol x i = true := by
  obtain ⟨a, b, d, t0, t1, t2, e0, e1, e2, rr, rfl, -, -, -⟩ := wf.eq
  unfold Front nzero onLs
  by_cases ha : sol a = 0 <;> by_cases hb : sol b = 0 <;> by_cases hd : sol d = 0 <;>
    (match i, hi with
    | 0, _ => simp [ends0, ha, hb, hd]
    | 1, _ => simp [ends1, ha, hb, hd]
    | 2, _ => simp [ends2, ha, hb, hd])

/-- References and tags of the edges of a triangle after the step. -/
theorem setref_data {isoref : Int} {sol : Nat → K} {x : Tri} (wf : WF x) :
    (setref keep isoref E.spl sol x).v = x.v ∧
    ∀ i < 3, (Front sol x i → (setref keep isoref E.spl sol x).edg.getD i 0 = isoref ∧
        (setref keep isoref E.spl sol x).tag.getD i 0 = x.tag.getD i 0 ||| refBit) ∧
      (¬ Front sol x i → (setref keep isoref E.spl sol x).edg.getD i 0 = x.edg.getD i 0 ∧
        (setref keep isoref E.spl sol x).tag.getD i 0 = x.tag.getD i 0) := by
  constructor
  · unfold setref
    simp only
    split <;> rfl
  · intro i hi
    rw [front_iff wf hi]
    unfold setref
    simp only
    by_cases hz : nzero sol x = 2
    · rw [if_pos hz]
      simp only [hz, true_and]
      rw [List.getD_eq_getElem _ _ (by rw [List.length_mapIdx, wf.edg]; exact hi), List.getElem_mapIdx,
        List.getD_eq_getElem _ _ (by rw [List.length_mapIdx, wf.tag]; exact hi), List.getElem_mapIdx,
        List.getD_eq_getElem _ _ (by rw [wf.tag]; exact hi), List.getD_eq_getElem _ _ (by rw [wf.edg]; exact hi)]
      cases onLs sol x i <;> simp
    · rw [if_neg hz]
      simp [hz]

/-- **C75.** References: a piece of a triangle that is split gets the inner reference if it is in the
negative part and the outer one if it is in the positive part; the others keep their reference, and all
do when the references are kept.  The edges on the level set (whose opposite vertex is not on it) get
the reference of the level set and the tag, the other ones keep their reference and their tag. -/
theorem C75_refs (G : Given E eps e2 sol ms) (hnz : ∀ m ∈ ms, ∃ p ∈ m.v, sol p ≠ 0)
    {isoref : Int} {start : Int → Int} {o : Res K}
    (h : discretize surf keep isoref start E alloc eps e2 c sol r ms = some o) :
    ∃ pt, EdgePoints E eps c sol (if keep then ms else ms.map (resetTri isoref start)) o.s.c o.s.sol pt ∧
      ∀ y ∈ o.ms, ∃ m ∈ ms, ∃ m', Reset keep isoref start m m' ∧
        ∃ x, Piece pt m' x ∧ y.v = x.v ∧
          (if keep then y.ref = m.ref else
            match E.spl (start m.ref) with
            | none => y.ref = start m.ref
            | some (rin, rex) =>
              (y.ref = rin ∧ (∀ p ∈ y.v, o.s.sol p ≤ 0) ∧ ∃ p ∈ y.v, o.s.sol p < 0) ∨
              (y.ref = rex ∧ (∀ p ∈ y.v, 0 ≤ o.s.sol p) ∧ ∃ p ∈ y.v, 0 < o.s.sol p)) ∧
          ∀ i < 3, (Front o.s.sol x i → y.edg.getD i 0 = isoref ∧ y.tag.getD i 0 = x.tag.getD i 0 ||| refBit) ∧
            (¬ Front o.s.sol x i → y.edg.getD i 0 = x.edg.getD i 0 ∧ y.tag.getD i 0 = x.tag.getD i 0) := by
  unfold discretize at h
  simp only at h
  by_cases hr : (cuttri surf E alloc eps e2 c sol (if keep then r else resetPref isoref ms r)
      (if keep then ms else ms.map (resetTri isoref start))).ret = 0
  · rw [if_pos hr] at h; cases h
  rw [if_neg hr] at h
  simp only [Option.some.injEq] at h
  subst h
  simp only
  have G1 := resetTri_given (keep := keep) (isoref := isoref) (start := start) G
  obtain ⟨pt, P, hpc⟩ := C75_points (surf := surf) (alloc := alloc) (c := c) G1 hr
  have hnz1 : ∀ m ∈ (if keep then ms else ms.map (resetTri isoref start)), ∃ p ∈ m.v, sol p ≠ 0 := by
    intro m' hm'
    obtain ⟨m, hm, hR⟩ := reset_ex hm'
    rw [hR.1]
    exact hnz m hm
  have hsd := C75_sides (surf := surf) (alloc := alloc) (c := c) G1 hnz1 hr
  refine ⟨pt, P, ?_⟩
  intro y hy
  obtain ⟨x, hx, rfl⟩ := List.mem_map.1 hy
  obtain ⟨m', hm', hP⟩ := hpc x hx
  obtain ⟨m, hm, hR⟩ := reset_ex hm'
  obtain ⟨hv, hdat⟩ := setref_data (keep := keep) (E := E) (isoref := isoref)
    (sol := (cuttri surf E alloc eps e2 c sol (if keep then r else resetPref isoref ms r)
      (if keep then ms else ms.map (resetTri isoref start))).s.sol) hP.1
  refine ⟨m, hm, m', hR, x, hP, hv, ?_, hdat⟩
  have hxr := hP.2.1
  have hsx := hsd x hx
  have hrf : ∀ s : Nat → K, (setref keep isoref E.spl s x).ref = if keep then x.ref else
    match E.spl x.ref with
    | none => x.ref
    | some (rin, rex) => if x.v.any fun p => decide (0 < s p) then rex else rin := by
    intro s
    unfold setref
    simp only
    split <;> rfl
  rw [hrf, hv]
  cases keep
  · simp only [Bool.false_eq_true, if_false] at hR hsx ⊢
    rw [hxr, hR.2.2.2.1] at hsx ⊢
    cases hspl : E.spl (start m.ref) with
    | none => simp only
    | some rr =>
      obtain ⟨rin, rex⟩ := rr
      simp only
      obtain ⟨hone, p, hp, hp0⟩ := hsx (by rw [hspl]; rfl)
      generalize (cuttri surf E alloc eps e2 c sol (resetPref isoref ms r) (ms.map (resetTri isoref start))).s.sol =
        sol' at *
      by_cases hany : (x.v.any fun p => decide (0 < sol' p)) = true
      · rw [if_pos hany]
        right
        rw [List.any_eq_true] at hany
        obtain ⟨q, hq, hq0⟩ := hany
        rw [decide_eq_true_eq] at hq0
        refine ⟨rfl, ?_, q, hq, hq0⟩
        rcases hone with h | h
        · exact h
        · exact absurd (hq0.trans_le (h q hq)) (lt_irrefl _)
      · rw [if_neg hany]
        left
        have hno : ∀ q ∈ x.v, sol' q ≤ 0 := by
          intro q hq
          by_contra hc
          exact hany (List.any_eq_true.2 ⟨q, hq, by simpa using hc⟩)
        exact ⟨rfl, hno, p, hp, lt_of_le_of_ne (hno p hp) hp0⟩
  · simp only [if_true] at hR ⊢
    rw [hxr, hR.2.2.2.1]

theorem setPref_foldl {isoref : Int} {sol : Nat → K} (l : List (Tri × Nat)) (r : Nat → Int) (p : Nat) :
    ((∃ x ∈ l, nzero sol x.1 = 2 ∧ onLs sol x.1 x.2 = true ∧ (p = (ends x.1 x.2).1 ∨ p = (ends x.1 x.2).2)) →
      l.foldl (setPref isoref sol) r p = isoref) ∧
    ((¬ ∃ x ∈ l, nzero sol x.1 = 2 ∧ onLs sol x.1 x.2 = true ∧ (p = (ends x.1 x.2).1 ∨ p = (ends x.1 x.2).2)) →
      l.foldl (setPref isoref sol) r p = r p) := by
  induction l generalizing r with
  | nil => simp
  | cons y l ih =>
    rw [List.foldl_cons]
    obtain ⟨i1, i2⟩ := ih (setPref isoref sol r y)
    by_cases hl : ∃ x ∈ l, nzero sol x.1 = 2 ∧ onLs sol x.1 x.2 = true ∧ (p = (ends x.1 x.2).1 ∨ p = (ends x.1 x.2).2)
    · refine ⟨fun _ => i1 hl, fun hn => absurd ?_ hn⟩
      obtain ⟨x, hx, h⟩ := hl
      exact ⟨x, List.mem_cons_of_mem _ hx, h⟩
    · rw [i2 hl]
      unfold setPref
      by_cases hc : nzero sol y.1 = 2 ∧ onLs sol y.1 y.2 = true
      · rw [if_pos hc]
        by_cases hp : p = (ends y.1 y.2).1 ∨ p = (ends y.1 y.2).2
        · refine ⟨fun _ => ?_, fun hn => absurd ⟨y, List.mem_cons_self, hc.1, hc.2, hp⟩ hn⟩
          simp only [upd]
          rcases hp with hp | hp
          · by_cases h2 : p = (ends y.1 y.2).2
            · simp [h2]
            · simp [hp]
          · simp [hp]
        · refine ⟨fun hx => ?_, fun _ => ?_⟩
          · obtain ⟨x, hx, h⟩ := hx
            rcases List.mem_cons.1 hx with rfl | hx
            · exact absurd h.2.2 hp
            · exact absurd ⟨x, hx, h⟩ hl
          · rw [not_or] at hp
            simp [upd, hp.1, hp.2]
      · rw [if_neg hc]
        refine ⟨fun hx => ?_, fun _ => rfl⟩
        obtain ⟨x, hx, h⟩ := hx
        rcases List.mem_cons.1 hx with rfl | hx
        · exact absurd ⟨h.1, h.2.1⟩ hc
        · exact absurd ⟨x, hx, h⟩ hl

/-- **C75.** The ends of the edges on the level set get the reference of the level set. -/
theorem C75_front_points (G : Given E eps e2 sol ms)
    {isoref : Int} {start : Int → Int} {o : Res K}
    (h : discretize surf keep isoref start E alloc eps e2 c sol r ms = some o) :
    ∀ y ∈ o.ms, ∀ i < 3, Front o.s.sol y i → o.r (ends y i).1 = isoref ∧ o.r (ends y i).2 = isoref := by
  unfold discretize at h
  simp only at h
  by_cases hr : (cuttri surf E alloc eps e2 c sol (if keep then r else resetPref isoref ms r)
      (if keep then ms else ms.map (resetTri isoref start))).ret = 0
  · rw [if_pos hr] at h; cases h
  rw [if_neg hr] at h
  simp only [Option.some.injEq] at h
  subst h
  simp only
  have G1 := resetTri_given (keep := keep) (isoref := isoref) (start := start) G
  obtain ⟨pt, P, hpc⟩ := C75_points (surf := surf) (alloc := alloc) (c := c) G1 hr
  intro y hy i hi hf
  obtain ⟨x, hx, rfl⟩ := List.mem_map.1 hy
  obtain ⟨m', hm', hP⟩ := hpc x hx
  obtain ⟨hv, _⟩ := setref_data (keep := keep) (E := E) (isoref := isoref)
    (sol := (cuttri surf E alloc eps e2 c sol (if keep then r else resetPref isoref ms r)
      (if keep then ms else ms.map (resetTri isoref start))).s.sol) hP.1
  have he : ∀ s : Nat → K, (setref keep isoref E.spl s x).v = x.v → ends (setref keep isoref E.spl s x) i = ends x i := by
    intro s hs; unfold ends; rw [hs]
  unfold Front at hf
  rw [he _ hv, hv] at hf
  have hf' := (front_iff (sol := (cuttri surf E alloc eps e2 c sol (if keep then r else resetPref isoref ms r)
      (if keep then ms else ms.map (resetTri isoref start))).s.sol) hP.1 hi).1 hf
  rw [he _ hv]
  constructor
  · exact (setPref_foldl _ _ _).1 ⟨(x, i), mem_edges.2 ⟨hx, hi⟩, hf'.1, hf'.2, .inl rfl⟩
  · exact (setPref_foldl _ _ _).1 ⟨(x, i), mem_edges.2 ⟨hx, hi⟩, hf'.1, hf'.2, .inr rfl⟩

/-- **C75.** Without a table of materials: the triangles of the result have the reference 3 (inside)
or 2 (outside), and an edge common to the two parts is on the level set and has its reference. -/
theorem C75_interface (G : Given E eps e2 sol ms) (hnz : ∀ m ∈ ms, ∃ p ∈ m.v, sol p ≠ 0)
    (hE : E.spl = fun _ => some Mat.isSplit0) {isoref : Int} {start : Int → Int} {o : Res K}
    (h : discretize surf false isoref start E alloc eps e2 c sol r ms = some o) :
    (∀ y ∈ o.ms, y.ref = 3 ∨ y.ref = 2) ∧
    ∀ y ∈ o.ms, ∀ z ∈ o.ms, y.ref = 3 → z.ref = 2 →
      (∀ p ∈ y.v, p ∈ z.v → o.s.sol p = 0) ∧
      ∀ i < 3, (ends y i).1 ∈ z.v → (ends y i).2 ∈ z.v →
        y.edg.getD i 0 = isoref ∧ y.tag.getD i 0 &&& refBit ≠ 0 := by
  obtain ⟨pt, P, hall⟩ := C75_refs G hnz h
  have key : ∀ y ∈ o.ms, ((y.ref = 3 ∧ (∀ p ∈ y.v, o.s.sol p ≤ 0) ∧ ∃ p ∈ y.v, o.s.sol p < 0) ∨
      (y.ref = 2 ∧ ∀ p ∈ y.v, 0 ≤ o.s.sol p)) := by
    intro y hy
    obtain ⟨m, _, m', _, x, _, _, hm, _⟩ := hall y hy
    rw [hE] at hm
    simp only [Mat.isSplit0, Bool.false_eq_true, if_false] at hm
    rcases hm with ⟨h1, h2, h3⟩ | ⟨h1, h2, _⟩
    · exact .inl ⟨h1, h2, h3⟩
    · exact .inr ⟨h1, h2⟩
  refine ⟨fun y hy => (key y hy).imp And.left And.left, ?_⟩
  intro y hy z hz hy3 hz2
  have hzero : ∀ p ∈ y.v, p ∈ z.v → o.s.sol p = 0 := by
    intro p hp hp'
    rcases key y hy with ⟨_, h1, _⟩ | ⟨h1, _⟩
    · rcases key z hz with ⟨h2, _⟩ | ⟨_, h2⟩
      · omega
      · exact le_antisymm (h1 p hp) (h2 p hp')
    · omega
  refine ⟨hzero, ?_⟩
  intro i hi h1 h2
  obtain ⟨m, _, m', _, x, hP, hv, _, hd⟩ := hall y hy
  have hends : ends y i = ends x i := by unfold ends; rw [hv]
  obtain ⟨m1, m2⟩ := ends_mem hP.1.v i
  have z1 := hzero _ (by rw [hv, hends]; exact m1) h1
  have z2 := hzero _ (by rw [hv, hends]; exact m2) h2
  rw [hends] at z1 z2
  have hF : Front o.s.sol x i := by
    refine ⟨z1, z2, ?_⟩
    rcases key y hy with ⟨_, _, p, hp, hneg⟩ | ⟨h1, _⟩
    · rw [hv] at hp
      intro h0
      obtain ⟨a, b, d, t0, t1, t2, e0, e1, e2, rr, rfl, -, -, -⟩ := hP.1.eq
      simp only [List.mem_cons, List.not_mem_nil, or_false] at hp
      match i, hi with
      | 0, _ => simp only [ends0, List.getD_cons_zero] at z1 z2 h0; rcases hp with rfl | rfl | rfl <;> linarith
      | 1, _ =>
        simp only [ends1, List.getD_cons_succ, List.getD_cons_zero] at z1 z2 h0
        rcases hp with rfl | rfl | rfl <;> linarith
      | 2, _ =>
        simp only [ends2, List.getD_cons_succ, List.getD_cons_zero] at z1 z2 h0
        rcases hp with rfl | rfl | rfl <;> linarith
    · omega
  obtain ⟨e1, e2⟩ := (hd i hi).1 hF
  refine ⟨e1, ?_⟩
  rw [e2]
  intro h0
  have : ((x.tag.getD i 0 ||| refBit) &&& refBit) = refBit := by
    apply BitVec.eq_of_getLsbD_eq
    intro j _
    simp only [BitVec.getLsbD_and, BitVec.getLsbD_or]
    cases (x.tag.getD i 0).getLsbD j <;> cases refBit.getLsbD j <;> rfl
  rw [this] at h0
  exact absurd h0 (by decide)

/-- **C75.** With an unambiguous table of materials whose rows cover the references of the mesh, the
reference of each triangle of the result is sent back to that of the triangle it comes from: the
discretization can be started again from the result. -/
theorem C75_restart (G : Given E eps e2 sol ms)
    (hnz : ∀ m ∈ ms, ∃ p ∈ m.v, sol p ≠ 0) {intmax : Int} {mats : List Mat.Mat} {refs : List Int}
    (hu : Mat.Unambiguous mats) {im : Mat.InvMat} (hi : Mat.init intmax mats refs = some im)
    (hE : E.spl = fun r => (Mat.isSplit mats im r).getD none)
    {isoref : Int} {start : Int → Int}
    (hm : ∀ m ∈ ms, ∃ row ∈ mats, start m.ref = row.ref) {o : Res K}
    (h : discretize surf false isoref start E alloc eps e2 c sol r ms = some o) :
    ∃ pt, ∀ y ∈ o.ms, ∃ m ∈ ms, ∃ m', Reset false isoref start m m' ∧ (∃ x, Piece pt m' x ∧ y.v = x.v) ∧
      Mat.getStartRef mats im y.ref = some (some (start m.ref)) := by
  obtain ⟨pt, _, hall⟩ := C75_refs G hnz h
  refine ⟨pt, fun y hy => ?_⟩
  obtain ⟨m, hmm, m', hR, x, hP, hv, hr, _⟩ := hall y hy
  refine ⟨m, hmm, m', hR, ⟨x, hP, hv⟩, ?_⟩
  simp only [Bool.false_eq_true, if_false] at hr
  obtain ⟨row, hrow, href⟩ := hm m hmm
  obtain ⟨im1, e1, h1, _⟩ := Mat.C21_inverse_map intmax refs hu
  obtain ⟨im2, e2', h2⟩ := Mat.C22_is_split intmax refs hu
  rw [hi] at e1 e2'
  cases e1
  cases e2'
  have hs := h2 row hrow row.ref (by simp [Mat.Mat.Has])
  rw [hE, href] at hr
  simp only [hs, Option.getD_some] at hr
  rw [href]
  apply h1 row hrow
  by_cases hd : row.dospl = 1
  · rw [if_pos hd] at hr
    rcases hr with ⟨hr, _⟩ | ⟨hr, _⟩ <;> rw [hr] <;> simp [Mat.Mat.Has, hd]
  · rw [if_neg hd] at hr
    rw [hr]
    simp [Mat.Mat.Has]

end

end Mmg.Ls2
