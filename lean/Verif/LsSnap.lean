/-
  C74: the values of the level set after the snapping (`MMG3D_snpval_ls`), and the references after a
  reset.
-/
import Verif.LsProps

namespace Mmg.Ls3
open Mmg.Split3

section
variable {K : Type} [Field K] [LinearOrder K] [IsStrictOrderedRing K]
  {eps ed : K} {valid : Nat → Bool} {mani : (Nat → K) → Nat → Nat → Bool}

/-! ### Tetrahedra of poor quality -/

theorem poor_spec (eps : K) (ts : List (QTet K)) (sol : Nat → K) (p : Nat) :
    ts.foldl (poor eps) sol p = sol p ∨
      (ts.foldl (poor eps) sol p = -1000 * eps ∧ ∃ q ∈ ts, q.qual < eps ∧ p ∈ q.v) := by
  induction ts generalizing sol with
  | nil => exact .inl rfl
  | cons q ts ih =>
    rw [List.foldl_cons]
    rcases ih (poor eps sol q) with h | ⟨h, q', hq', h1, h2⟩
    · rw [h]
      unfold poor
      split
      · rename_i hc
        by_cases hp : p ∈ q.v
        · exact .inr ⟨by simp [hp], q, List.mem_cons_self, hc.1, hp⟩
        · left; simp [hp]
      · exact .inl rfl
    · exact .inr ⟨h, q', List.mem_cons_of_mem _ hq', h1, h2⟩

/-! ### The state of one vertex -/

/-- The vertex has been snapped (and is marked), or corrected, or has a value that is not small. -/
def Cell (eps ed : K) (x0 x t : K) (f : Bool) : Prop :=
  (eps ≤ |x0| ∧ x = x0 ∧ f = false) ∨
  (|x0| < eps ∧ t = (if |x0| < ed then -100 * eps else x0) ∧
    ((f = true ∧ x = 0) ∨ (f = false ∧ x = if t < 0 then -100 * eps else 100 * eps)))

theorem snap_spec (l : List Nat) (hn : l.Nodup) (s : Sn K) (hf : ∀ k ∈ l, s.flag k = false) :
    (∀ k, (k ∈ l ∧ valid k = true) →
      Cell eps ed (s.sol k) ((l.foldl (snap1 eps ed valid) s).sol k)
        ((l.foldl (snap1 eps ed valid) s).tmp k) ((l.foldl (snap1 eps ed valid) s).flag k)) ∧
    (∀ k, ¬ (k ∈ l ∧ valid k = true) →
      (l.foldl (snap1 eps ed valid) s).sol k = s.sol k ∧
      (l.foldl (snap1 eps ed valid) s).tmp k = s.tmp k ∧
      (l.foldl (snap1 eps ed valid) s).flag k = s.flag k) := by
  induction l generalizing s with
  | nil => exact ⟨by simp, fun _ _ => ⟨rfl, rfl, rfl⟩⟩
  | cons a l ih =>
    rw [List.nodup_cons] at hn
    rw [List.foldl_cons]
    have hne : ∀ k, k ≠ a → (snap1 eps ed valid s a).sol k = s.sol k ∧
        (snap1 eps ed valid s a).tmp k = s.tmp k ∧ (snap1 eps ed valid s a).flag k = s.flag k := by
      intro k hk
      unfold snap1
      split
      · simp [upd, hk]
      · exact ⟨rfl, rfl, rfl⟩
    obtain ⟨i1, i2⟩ := ih hn.2 (snap1 eps ed valid s a) (by
      intro k hk
      rw [(hne k (fun h => hn.1 (h ▸ hk))).2.2]
      exact hf k (List.mem_cons_of_mem _ hk))
    constructor
    · rintro k ⟨hk, hv⟩
      rcases List.mem_cons.1 hk with rfl | hk
      · obtain ⟨j1, j2, j3⟩ := i2 k (fun h => hn.1 h.1)
        rw [j1, j2, j3]
        unfold snap1
        by_cases hs : |s.sol k| < eps
        · rw [if_pos ⟨hv, hs⟩]
          right
          simp [upd, hs]
        · rw [if_neg (fun h => hs h.2)]
          left
          exact ⟨not_lt.1 hs, rfl, hf k List.mem_cons_self⟩
      · have := i1 k ⟨hk, hv⟩
        rwa [(hne k (fun h => hn.1 (h ▸ hk))).1] at this
    · intro k hk
      have hk' : ¬ (k ∈ l ∧ valid k = true) := fun h => hk ⟨List.mem_cons_of_mem _ h.1, h.2⟩
      obtain ⟨j1, j2, j3⟩ := i2 k hk'
      rw [j1, j2, j3]
      by_cases ha : k = a
      · subst ha
        have hv : valid k ≠ true := fun h => hk ⟨List.mem_cons_self, h⟩
        unfold snap1
        rw [if_neg (fun h => hv h.1)]
        exact ⟨rfl, rfl, rfl⟩
      · exact hne k ha

/-! ### The corrections -/

section
variable {qs : Nat → List Nat}

theorem back1_cell {s : Sn K × Nat} {x : Nat × Nat} {k : Nat} {x0 : K}
    (h : Cell eps ed x0 (s.1.sol k) (s.1.tmp k) (s.1.flag k)) :
    Cell eps ed x0 ((back1 eps mani qs s x).1.sol k) ((back1 eps mani qs s x).1.tmp k)
      ((back1 eps mani qs s x).1.flag k) := by
  unfold back1
  simp only
  split
  · rename_i hc
    by_cases hk : k = (qs x.1).getD x.2 0
    · subst hk
      simp only [upd, if_true]
      rcases h with ⟨_, _, h⟩ | ⟨h1, h2, _⟩
      · rw [hc.1] at h; cases h
      · exact .inr ⟨h1, h2, .inr ⟨rfl, rfl⟩⟩
    · simp only [upd, hk, if_false]
      exact h
  · exact h

theorem foldl_back1_cell {l : List (Nat × Nat)} {s : Sn K × Nat} {k : Nat} {x0 : K}
    (h : Cell eps ed x0 (s.1.sol k) (s.1.tmp k) (s.1.flag k)) :
    Cell eps ed x0 ((l.foldl (back1 eps mani qs) s).1.sol k) ((l.foldl (back1 eps mani qs) s).1.tmp k)
      ((l.foldl (back1 eps mani qs) s).1.flag k) := by
  induction l generalizing s with
  | nil => exact h
  | cons a l ih => rw [List.foldl_cons]; exact ih (back1_cell h)

theorem back1_flag {s : Sn K × Nat} {x : Nat × Nat} {k : Nat}
    (h : (back1 eps mani qs s x).1.flag k = true) : s.1.flag k = true := by
  unfold back1 at h
  simp only at h
  split at h
  · simp only [upd] at h
    split at h
    · cases h
    · exact h
  · exact h

/-- Number of marked vertices. -/
def marked (np : Nat) (s : Sn K) : Nat := (List.range' 1 np).countP fun k => s.flag k

theorem countP_upd {l : List Nat} (hn : l.Nodup) {f : Nat → Bool} {p : Nat} (hp : p ∈ l)
    (hf : f p = true) : l.countP (upd f p false) + 1 = l.countP f := by
  induction l with
  | nil => simp at hp
  | cons a l ih =>
    rw [List.nodup_cons] at hn
    rcases List.mem_cons.1 hp with rfl | hp
    · rw [List.countP_cons, List.countP_cons, hf]
      have : l.countP (upd f p false) = l.countP f := by
        apply List.countP_congr
        intro q hq
        have : q ≠ p := fun h => hn.1 (h ▸ hq)
        simp [upd, this]
      simp [upd, this]
    · have ha : a ≠ p := fun h => hn.1 (h ▸ hp)
      rw [List.countP_cons, List.countP_cons, ← ih hn.2 hp]
      have : upd f p false a = f a := by simp [upd, ha]
      rw [this]
      omega

theorem back1_count {np : Nat} {s : Sn K × Nat} {x : Nat × Nat}
    (hr : ∀ k, s.1.flag k = true → k ∈ List.range' 1 np) :
    marked np (back1 eps mani qs s x).1 + (back1 eps mani qs s x).2 = marked np s.1 + s.2 := by
  unfold back1
  simp only
  split
  · rename_i hc
    have := countP_upd (List.nodup_range' (s := 1) (n := np)) (hr _ hc.1) hc.1
    unfold marked
    simp only
    have e : (fun k => upd s.1.flag ((qs x.1).getD x.2 0) false k) =
      upd s.1.flag ((qs x.1).getD x.2 0) false := rfl
    rw [e]
    have e2 : (fun k => s.1.flag k) = s.1.flag := rfl
    rw [e2]
    omega
  · rfl

theorem foldl_back1_count {np : Nat} (l : List (Nat × Nat)) {s : Sn K × Nat}
    (hr : ∀ k, s.1.flag k = true → k ∈ List.range' 1 np) :
    marked np (l.foldl (back1 eps mani qs) s).1 + (l.foldl (back1 eps mani qs) s).2 =
      marked np s.1 + s.2 ∧
    ∀ k, (l.foldl (back1 eps mani qs) s).1.flag k = true → k ∈ List.range' 1 np := by
  induction l generalizing s with
  | nil => exact ⟨rfl, hr⟩
  | cons a l ih =>
    rw [List.foldl_cons]
    obtain ⟨h1, h2⟩ := ih (s := back1 eps mani qs s a) fun k hk => hr k (back1_flag hk)
    exact ⟨h1.trans (back1_count hr), h2⟩

theorem back1_le {s : Sn K × Nat} {x : Nat × Nat} : s.2 ≤ (back1 eps mani qs s x).2 := by
  unfold back1
  simp only
  split <;> simp

theorem foldl_back1_le (l : List (Nat × Nat)) {s : Sn K × Nat} :
    s.2 ≤ (l.foldl (back1 eps mani qs) s).2 := by
  induction l generalizing s with
  | nil => exact le_rfl
  | cons a l ih => rw [List.foldl_cons]; exact back1_le.trans ih

/-- A turn without correction. -/
theorem foldl_back1_zero (l : List (Nat × Nat)) {s : Sn K} (h : (l.foldl (back1 eps mani qs) (s, 0)).2 = 0) :
    (l.foldl (back1 eps mani qs) (s, 0)).1 = s ∧
    ∀ x ∈ l, s.flag ((qs x.1).getD x.2 0) = true → mani s.sol x.1 x.2 = true := by
  induction l with
  | nil => exact ⟨rfl, by simp⟩
  | cons a l ih =>
    rw [List.foldl_cons] at h ⊢
    by_cases hc : s.flag ((qs a.1).getD a.2 0) = true ∧ mani s.sol a.1 a.2 = false
    · have h1 : (back1 eps mani qs (s, 0) a).2 = 1 := by
        unfold back1
        simp only
        rw [if_pos hc]
      have := foldl_back1_le (eps := eps) (mani := mani) (qs := qs) l (s := back1 eps mani qs (s, 0) a)
      omega
    · have h1 : back1 eps mani qs (s, 0) a = (s, 0) := by
        unfold back1
        simp only
        rw [if_neg hc]
      rw [h1] at h ⊢
      obtain ⟨i1, i2⟩ := ih h
      refine ⟨i1, fun x hx hfl => ?_⟩
      rcases List.mem_cons.1 hx with rfl | hx
      · by_contra hm
        exact hc ⟨hfl, by simpa using hm⟩
      · exact i2 x hx hfl

theorem backLoop_spec {np ne : Nat} (fuel : Nat) (s : Sn K)
    (hr : ∀ k, s.flag k = true → k ∈ List.range' 1 np) (hfu : marked np s < fuel) :
    ∃ s', backLoop eps mani qs ne fuel s = some s' ∧
      (∀ k x0, Cell eps ed x0 (s.sol k) (s.tmp k) (s.flag k) →
        Cell eps ed x0 (s'.sol k) (s'.tmp k) (s'.flag k)) ∧
      ∀ x ∈ corners ne, s'.flag ((qs x.1).getD x.2 0) = true → mani s'.sol x.1 x.2 = true := by
  induction fuel generalizing s with
  | zero => omega
  | succ fuel ih =>
    have hcount := foldl_back1_count (eps := eps) (mani := mani) (qs := qs) (corners ne) (s := (s, 0)) hr
    unfold backLoop
    rcases hres : (corners ne).foldl (back1 eps mani qs) (s, 0) with ⟨s1, n⟩
    rw [hres] at hcount
    cases n with
    | zero =>
      obtain ⟨h1, h2⟩ := foldl_back1_zero (eps := eps) (mani := mani) (qs := qs) (corners ne) (s := s)
        (by rw [hres])
      rw [hres] at h1
      simp only at h1
      subst h1
      exact ⟨s1, rfl, fun _ _ h => h, h2⟩
    | succ n =>
      simp only at hcount ⊢
      obtain ⟨s', e, i1, i2⟩ := ih s1 hcount.2 (by omega)
      refine ⟨s', e, fun k x0 hc => i1 k x0 ?_, i2⟩
      have := foldl_back1_cell (mani := mani) (qs := qs) (l := corners ne) (s := (s, 0)) hc
      rwa [hres] at this

end

/-! ### C74 -/

/-- The value `y` after the snapping of the value `x`: values that are not small are kept; a small
one becomes 0 or moves away from 0, on its side (below `ed` it may only go to the negative side). -/
def Snapped (eps ed x y : K) : Prop :=
  (eps ≤ |x| ∧ y = x) ∨
  (|x| < eps ∧ (y = 0 ∨ (y = 100 * eps ∧ ed ≤ x) ∨ (y = -100 * eps ∧ x < ed)))

/-- **C74.** The snapping ends.  Then every vertex has the value 0 or a value that is not small; the
values only change for small values, or (to the negative side) in tetrahedra of very poor quality;
the test on the ball is passed at each corner with value 0. -/
theorem C74_snap (he : 0 < eps) (hd : 0 < ed) {np fuel : Nat} {ts : List (QTet K)} {sol : Nat → K}
    (hfu : np < fuel) (hts : ∀ q ∈ ts, q.v.length = 4 ∧ ∀ p ∈ q.v, valid p = true ∧ 1 ≤ p ∧ p ≤ np) :
    ∃ s, snpval eps ed valid mani np ts sol fuel = some s ∧
      (∀ k, valid k = true → 1 ≤ k → k ≤ np → s.sol k = 0 ∨ eps ≤ |s.sol k|) ∧
      (∀ k, valid k = true → 1 ≤ k → k ≤ np → Snapped eps ed (sol k) (s.sol k) ∨
        (s.sol k = -1000 * eps ∧ ∃ q ∈ ts, q.qual < eps ∧ k ∈ q.v)) ∧
      (∀ k < ts.length, ∀ i < 4, s.sol ((ts.getD k ⟨[], 0⟩).v.getD i 0) = 0 → mani s.sol k i = true) := by
  unfold snpval
  simp only
  generalize hsol1 : ts.foldl (poor eps) sol = sol1
  have hpoor := poor_spec eps ts sol
  rw [hsol1] at hpoor
  obtain ⟨c1, c2⟩ := snap_spec (eps := eps) (ed := ed) (valid := valid) (List.range' 1 np)
    List.nodup_range' ⟨sol1, fun _ => 0, fun _ => false⟩ (by simp)
  generalize (List.range' 1 np).foldl (snap1 eps ed valid) ⟨sol1, fun _ => 0, fun _ => false⟩ = s1 at c1 c2 ⊢
  have hmem : ∀ k, k ∈ List.range' 1 np ↔ 1 ≤ k ∧ k ≤ np := by
    intro k; rw [List.mem_range'_1]; omega
  obtain ⟨s', e, i1, i2⟩ := backLoop_spec (eps := eps) (ed := ed) (mani := mani)
    (qs := fun k => (ts.getD k ⟨[], 0⟩).v) (np := np) (ne := ts.length) fuel s1 (by
      intro k hk
      by_contra hc
      rw [(c2 k (fun h => hc h.1)).2.2] at hk
      cases hk) (lt_of_le_of_lt (List.countP_le_length.trans (by simp)) hfu)
  have cell : ∀ k, valid k = true → 1 ≤ k → k ≤ np →
      Cell eps ed (sol1 k) (s'.sol k) (s'.tmp k) (s'.flag k) := fun k hv h1 h2 =>
    i1 k _ (c1 k ⟨(hmem k).2 ⟨h1, h2⟩, hv⟩)
  have h100 : |(-100 : K) * eps| = 100 * eps ∧ |(100 : K) * eps| = 100 * eps := by
    constructor
    · rw [abs_mul, abs_of_pos he]; norm_num
    · rw [abs_mul, abs_of_pos he]; norm_num
  refine ⟨s', e, ?_, ?_, ?_⟩
  · intro k hv h1 h2
    rcases cell k hv h1 h2 with ⟨a, b, _⟩ | ⟨_, _, ⟨_, b⟩ | ⟨_, b⟩⟩
    · rw [b]; exact .inr a
    · exact .inl b
    · right
      rw [b]
      split
      · rw [h100.1]; linarith
      · rw [h100.2]; linarith
  · intro k hv h1 h2
    rcases hpoor k with hp | ⟨hp, hq⟩
    · left
      have := cell k hv h1 h2
      rw [hp] at this
      rcases this with ⟨a, b, _⟩ | ⟨a, t, ⟨_, b⟩ | ⟨_, b⟩⟩
      · exact .inl ⟨a, b⟩
      · exact .inr ⟨a, .inl b⟩
      · refine .inr ⟨a, .inr ?_⟩
        rw [t] at b
        by_cases hx : |sol k| < ed
        · rw [if_pos hx, if_pos (by linarith)] at b
          exact .inr ⟨b, (abs_lt.1 hx).2⟩
        · rw [if_neg hx] at b
          by_cases hn : sol k < 0
          · rw [if_pos hn] at b
            exact .inr ⟨b, by linarith⟩
          · rw [if_neg hn] at b
            refine .inl ⟨b, ?_⟩
            rw [abs_of_nonneg (not_lt.1 hn)] at hx
            exact not_lt.1 hx
    · right
      have h1000 : eps ≤ |(-1000 : K) * eps| := by
        rw [abs_mul, abs_of_pos he]
        have : |(-1000 : K)| = 1000 := by norm_num
        rw [this]; linarith
      rcases cell k hv h1 h2 with ⟨_, b, _⟩ | ⟨a, _⟩
      · exact ⟨b.trans hp, hq⟩
      · rw [hp] at a
        exact absurd (h1000.trans_lt a) (lt_irrefl _)
  · intro k hk i hi h0
    refine i2 (k, i) ?_ ?_
    · unfold corners
      simp only [List.mem_flatMap, List.mem_map, List.mem_range, Prod.mk.injEq]
      exact ⟨k, hk, i, hi, rfl, rfl⟩
    · simp only
      have hq := hts (ts.getD k ⟨[], 0⟩) (by
        rw [List.getD_eq_getElem _ _ hk]; exact List.getElem_mem _)
      have hp := hq.2 ((ts.getD k ⟨[], 0⟩).v.getD i 0) (by
        rw [List.getD_eq_getElem (ts.getD k ⟨[], 0⟩).v _ (by rw [hq.1]; exact hi)]; exact List.getElem_mem _)
      rcases cell _ hp.1 hp.2.1 hp.2.2 with ⟨a, b, _⟩ | ⟨_, _, ⟨a, _⟩ | ⟨_, b⟩⟩
      · rw [← b, h0, abs_zero] at a
        exact absurd (he.trans_le a) (lt_irrefl _)
      · exact a
      · rw [h0] at b
        split at b <;> linarith

/-- **C74.** With an unambiguous table of materials whose rows cover the references of the mesh, the
reference of each tetrahedron of the result is sent back to that of the tetrahedron it comes from:
the discretization can be started again from the result. -/
theorem C74_restart {E : Env} {e2 : K} {alloc : Bool} {junk : Nat → BitVec 16} {c : Nat → Pt K}
    {sol : Nat → K} {ms : List LTet} (G : Given E eps e2 sol ms)
    (hnz : ∀ m ∈ ms, ∃ p ∈ m.t.v, sol p ≠ 0) {intmax : Int} {mats : List Mat.Mat} {refs : List Int}
    (hu : Mat.Unambiguous mats) {im : Mat.InvMat} (hi : Mat.init intmax mats refs = some im)
    (hE : E.spl = fun r => (Mat.isSplit mats im r).getD none)
    (hm : ∀ m ∈ ms, ∃ row ∈ mats, m.ref = row.ref)
    {s : S3 K} {out : List LTet} (h : discretize E alloc eps e2 junk c sol ms = some (s, out)) :
    ∃ pt, ∀ y ∈ out, ∃ m ∈ ms, Piece pt m { y with ref := m.ref } ∧
      Mat.getStartRef mats im y.ref = some (some m.ref) := by
  obtain ⟨pt, _, hall⟩ := C74_refs G hnz h
  refine ⟨pt, fun y hy => ?_⟩
  obtain ⟨m, hmm, hP, hr⟩ := hall y hy
  refine ⟨m, hmm, hP, ?_⟩
  obtain ⟨row, hrow, href⟩ := hm m hmm
  obtain ⟨im1, e1, h1, _⟩ := Mat.C21_inverse_map intmax refs hu
  obtain ⟨im2, e2', h2⟩ := Mat.C22_is_split intmax refs hu
  rw [hi] at e1 e2'
  cases e1
  cases e2'
  have hs := h2 row hrow row.ref (by simp [Mat.Mat.Has])
  rw [hE, href] at hr
  simp only [hs, Option.getD_some] at hr
  rw [href]
  apply h1 row hrow
  by_cases hd : row.dospl = 1
  · rw [if_pos hd] at hr
    rcases hr with ⟨hr, _⟩ | ⟨hr, _⟩ <;> rw [hr] <;> simp [Mat.Mat.Has, hd]
  · rw [if_neg hd] at hr
    rw [hr]
    simp [Mat.Mat.Has]

end

end Mmg.Ls3
