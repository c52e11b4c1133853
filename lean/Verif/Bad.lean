import Verif.BadModel
import Verif.LenRep

/-!
# C108: the bad tetrahedra listed by the check of a mesh
-/

namespace Mmg.LenRep

variable {K : Type} [LinearOrder K]

/-- The quality is 0 or below the bound. -/
def Poor (zero crit q : K) : Prop := q = zero ∨ q < crit

/-- The length is out of the bounds. -/
def Out (lmin lmax l : K) : Prop := l < lmin ∨ lmax < l

theorem bad_iff {lmin lmax l : K} : bad lmin lmax l = true ↔ Out lmin lmax l := by
  simp [bad, Out]

theorem scan_sound (lmin lmax : K) : ∀ (l : List (E × K)) (s : List E), (scan lmin lmax s l).2 = true → ∃ x ∈ l, Out lmin lmax x.2
  | [], _, h => by simp [scan] at h
  | x :: xs, s, h => by
    unfold scan at h
    split at h
    · split at h
      · rename_i hb
        exact ⟨x, List.mem_cons_self .., bad_iff.mp hb⟩
      · obtain ⟨y, h1, h2⟩ := scan_sound lmin lmax xs _ h
        exact ⟨y, List.mem_cons_of_mem _ h1, h2⟩
    · obtain ⟨y, h1, h2⟩ := scan_sound lmin lmax xs _ h
      exact ⟨y, List.mem_cons_of_mem _ h1, h2⟩

/-- An edge that is in the table and bad is found. -/
theorem scan_finds (lmin lmax : K) (g : E) : ∀ (l : List (E × K)) (s : List E), g ∈ s → (∃ x ∈ l, norm x.1 = g) →
    (∀ x ∈ l, norm x.1 = g → Out lmin lmax x.2) → (scan lmin lmax s l).2 = true
  | [], _, _, h, _ => by obtain ⟨x, h, _⟩ := h; cases h
  | y :: ys, s, hs, h, hb => by
    have hb' : ∀ x ∈ ys, norm x.1 = g → Out lmin lmax x.2 := fun x hx => hb x (List.mem_cons_of_mem _ hx)
    have tail : norm y.1 ≠ g → ∃ x ∈ ys, norm x.1 = g := by
      intro hy
      obtain ⟨x, hx, e⟩ := h
      rcases List.mem_cons.mp hx with rfl | hx
      · exact absurd e hy
      · exact ⟨x, hx, e⟩
    unfold scan
    split
    · split
      · rfl
      · rename_i hnb
        have hy : norm y.1 ≠ g := fun e => hnb (bad_iff.mpr (hb y (List.mem_cons_self ..) e))
        exact scan_finds lmin lmax g ys _ (List.mem_filter.mpr ⟨hs, by simpa using fun e => hy e.symm⟩) (tail hy) hb'
    · rename_i hn
      have hy : norm y.1 ≠ g := fun e => hn (e ▸ hs)
      exact scan_finds lmin lmax g ys _ hs (tail hy) hb'

/-- Other edges stay in the table. -/
theorem scan_keeps (lmin lmax : K) (g : E) : ∀ (l : List (E × K)) (s : List E), g ∈ s → (∀ x ∈ l, norm x.1 ≠ g) → g ∈ (scan lmin lmax s l).1
  | [], _, hs, _ => hs
  | y :: ys, s, hs, h => by
    have hy := h y (List.mem_cons_self ..)
    have h' : ∀ x ∈ ys, norm x.1 ≠ g := fun x hx => h x (List.mem_cons_of_mem _ hx)
    have hf : g ∈ s.filter fun e => decide (e ≠ norm y.1) := List.mem_filter.mpr ⟨hs, by simpa using fun e => hy e.symm⟩
    unfold scan
    split
    · split
      · exact hf
      · exact scan_keeps lmin lmax g ys _ hf h'
    · exact scan_keeps lmin lmax g ys _ hs h'

theorem marks_sound (lmin lmax : K) : ∀ (ts : List (Elt K)) (s : List E) (k : Nat), (marks lmin lmax s ts)[k]? = some true →
    ∃ t, ts[k]? = some t ∧ t.ok = true ∧ ∃ x ∈ sides3 t, Out lmin lmax x.2
  | [], _, k, h => by simp [marks] at h
  | t :: ts, s, k, h => by
    unfold marks at h
    split at h
    · rename_i hok
      cases k with
      | zero =>
        simp only [List.getElem?_cons_zero, Option.some.injEq] at h
        exact ⟨t, rfl, hok, scan_sound lmin lmax _ _ h⟩
      | succ k =>
        rw [List.getElem?_cons_succ] at h ⊢
        exact marks_sound lmin lmax ts _ k h
    · cases k with
      | zero => simp at h
      | succ k =>
        rw [List.getElem?_cons_succ] at h ⊢
        exact marks_sound lmin lmax ts _ k h

theorem marks_cover (lmin lmax : K) (g : E) : ∀ (ts : List (Elt K)) (s : List E), g ∈ s →
    (∀ t ∈ ts, ∀ x ∈ sides3 t, norm x.1 = g → Out lmin lmax x.2) →
    (∃ t ∈ ts, t.ok = true ∧ ∃ x ∈ sides3 t, norm x.1 = g) →
    ∃ (k : Nat) (t : Elt K), ts[k]? = some t ∧ (marks lmin lmax s ts)[k]? = some true ∧ ∃ x ∈ sides3 t, norm x.1 = g
  | [], _, _, _, h => by obtain ⟨x, h, _⟩ := h; cases h
  | t :: ts, s, hs, hb, h => by
    have hb' : ∀ u ∈ ts, ∀ x ∈ sides3 u, norm x.1 = g → Out lmin lmax x.2 := fun u hu => hb u (List.mem_cons_of_mem _ hu)
    have tail : ¬ (t.ok = true ∧ ∃ x ∈ sides3 t, norm x.1 = g) → ∃ t ∈ ts, t.ok = true ∧ ∃ x ∈ sides3 t, norm x.1 = g := by
      intro hn
      obtain ⟨u, hu, e⟩ := h
      rcases List.mem_cons.mp hu with rfl | hu
      · exact absurd e hn
      · exact ⟨u, hu, e⟩
    by_cases hok : t.ok = true
    · by_cases hx : ∃ x ∈ sides3 t, norm x.1 = g
      · refine ⟨0, t, rfl, ?_, hx⟩
        unfold marks
        rw [if_pos hok, List.getElem?_cons_zero, scan_finds lmin lmax g _ s hs hx (hb t (List.mem_cons_self ..))]
      · have hk := scan_keeps lmin lmax g (sides3 t) s hs (fun x h1 h2 => hx ⟨x, h1, h2⟩)
        obtain ⟨k, u, h1, h2, h3⟩ := marks_cover lmin lmax g ts _ hk hb' (tail fun e => hx e.2)
        refine ⟨k + 1, u, h1, ?_, h3⟩
        unfold marks
        rw [if_pos hok, List.getElem?_cons_succ]
        exact h2
    · obtain ⟨k, u, h1, h2, h3⟩ := marks_cover lmin lmax g ts _ hs hb' (tail fun e => hok e.1)
      refine ⟨k + 1, u, h1, ?_, h3⟩
      unfold marks
      rw [if_neg hok, List.getElem?_cons_succ]
      exact h2

/-- Edge `ia` of a tetrahedron joins these local vertices. -/
theorem mem_sides {t : Elt K} {x : E × K} : x ∈ sides3 t ↔ ∃ ia < 6, x = ((t.v (iare.getD ia (0, 0)).1, t.v (iare.getD ia (0, 0)).2), t.len ia) := by
  unfold sides3
  simp only [List.mem_map, List.mem_range]
  exact ⟨fun ⟨i, h, e⟩ => ⟨i, h, e.symm⟩, fun ⟨i, h, e⟩ => ⟨i, h, e.symm⟩⟩

/-- C108, quality: the tetrahedra marked are exactly those in use whose quality is 0 or below the bound. -/
theorem C108_quality (zero crit : K) (M : Met) (ts : List (Chk K)) (k : Nat) (t : Chk K) (h : ts[k]? = some t) :
    (searchqua zero crit M ts)[k]? = some true ↔
      t.ok = true ∧ ((M.rid = false ∧ M.m = true ∧ 1 < M.size ∧ Poor zero crit t.qual33) ∨
        (¬ (M.rid = false ∧ M.m = true ∧ 1 < M.size) ∧ Poor zero crit t.qual)) := by
  unfold searchqua Poor
  rw [List.getElem?_map, h]
  have hc : M.classic = true ↔ M.rid = false ∧ M.m = true ∧ 1 < M.size := by simp [Met.classic, and_assoc]
  by_cases c : M.classic = true
  · have := hc.mp c
    simp [c, this]
  · have := fun e => c (hc.mpr e)
    simp only [c, Option.map_some, Option.some.injEq, Bool.and_eq_true, Bool.or_eq_true, decide_eq_true_eq]
    tauto

/-- C108, lengths: a tetrahedron that is marked is in use and has an edge whose length is out of the bounds. -/
theorem C108_sound (lmin lmax : K) (M : Met) (ts : List (Chk K)) (k : Nat) (h : (searchlen lmin lmax M ts)[k]? = some true) :
    ∃ t, ts[k]? = some t ∧ t.ok = true ∧ ∃ ia < 6, Out lmin lmax (lenUsed M t ia) := by
  obtain ⟨u, h1, h2, x, h3, h4⟩ := marks_sound lmin lmax _ _ k h
  rw [List.getElem?_map, Option.map_eq_some_iff] at h1
  obtain ⟨t, h1, rfl⟩ := h1
  obtain ⟨ia, h5, rfl⟩ := mem_sides.mp h3
  exact ⟨t, h1, h2, ia, h5, h4⟩

/-- C108, lengths: if the length of an edge is the same in all tetrahedra, each edge with a length out of the bounds is in a tetrahedron that is
marked. Missing from the full statement: the other tetrahedra with this edge, and the function that gives the length. -/
theorem C108_covered_partial [AddCommMonoid K] (lmin lmax : K) (M : Met) (ts : List (Chk K)) (L : Sym2 Nat → K)
    (hL : ∀ t ∈ ts, ∀ ia < 6, lenUsed M t ia = L s(t.v (iare.getD ia (0, 0)).1, t.v (iare.getD ia (0, 0)).2)) (z : Sym2 Nat)
    (hz : Out lmin lmax (L z)) (he : ∃ t ∈ ts, t.ok = true ∧ ∃ i j, i < j ∧ j < 4 ∧ z = s(t.v i, t.v j)) :
    ∃ (k : Nat) (t : Chk K), ts[k]? = some t ∧ (searchlen lmin lmax M ts)[k]? = some true ∧ ∃ i j, i < j ∧ j < 4 ∧ z = s(t.v i, t.v j) := by
  have hj : ∀ t : Chk K, (∃ x ∈ sides3 (elt M t), norm x.1 = form z) ↔ ∃ i j, i < j ∧ j < 4 ∧ z = s(t.v i, t.v j) := by
    intro t
    have h1 := joins_iff (elt M t) (form z)
    rw [joins_form] at h1
    rw [List.mem_map] at h1
    exact h1
  obtain ⟨t, ht, hok, hi⟩ := he
  have hx := (hj t).mpr hi
  have hin : form z ∈ hashed (ts.map (elt M)) := by
    unfold hashed
    rw [List.mem_flatMap]
    exact ⟨elt M t, List.mem_filter.mpr ⟨List.mem_map_of_mem ht, hok⟩, List.mem_map.mpr hx⟩
  obtain ⟨k, u, h1, h2, h3⟩ := marks_cover lmin lmax (form z) (ts.map (elt M)) _ hin (by
    intro u hu x hxs hxg
    obtain ⟨w, hw, rfl⟩ := List.mem_map.mp hu
    obtain ⟨ia, h5, rfl⟩ := mem_sides.mp hxs
    have e1 : s(w.v (iare.getD ia (0, 0)).1, w.v (iare.getD ia (0, 0)).2) = z := form_inj hxg
    have e2 : (elt M w).len ia = L z := by rw [← e1]; exact hL w hw ia h5
    simp only [e2]
    exact hz) ⟨elt M t, List.mem_map_of_mem ht, hok, hx⟩
  rw [List.getElem?_map, Option.map_eq_some_iff] at h1
  obtain ⟨w, h1, rfl⟩ := h1
  exact ⟨k, w, h1, h2, (hj w).mp h3⟩

theorem marks_first (lmin lmax : K) (g : E) : ∀ (ts : List (Elt K)) (s : List E) (k : Nat) (t : Elt K), g ∈ s → ts[k]? = some t → t.ok = true →
    (∃ x ∈ sides3 t, norm x.1 = g) → (∀ x ∈ sides3 t, norm x.1 = g → Out lmin lmax x.2) →
    (∀ (j : Nat) (u : Elt K), j < k → ts[j]? = some u → u.ok = true → ∀ x ∈ sides3 u, norm x.1 ≠ g) → (marks lmin lmax s ts)[k]? = some true
  | [], _, _, _, _, h, _, _, _, _ => by simp at h
  | u :: ts, s, 0, t, hs, h, hok, hx, hb, _ => by
    simp only [List.getElem?_cons_zero, Option.some.injEq] at h
    subst h
    unfold marks
    rw [if_pos hok, List.getElem?_cons_zero, scan_finds lmin lmax g _ s hs hx hb]
  | u :: ts, s, k + 1, t, hs, h, hok, hx, hb, hf => by
    rw [List.getElem?_cons_succ] at h
    have hf' : ∀ (j : Nat) (w : Elt K), j < k → ts[j]? = some w → w.ok = true → ∀ x ∈ sides3 w, norm x.1 ≠ g :=
      fun j w hj hw => hf (j + 1) w (by omega) (by rw [List.getElem?_cons_succ]; exact hw)
    unfold marks
    split
    · rename_i hu
      rw [List.getElem?_cons_succ]
      exact marks_first lmin lmax g ts _ k t (scan_keeps lmin lmax g _ s hs (hf 0 u (by omega) rfl hu)) h hok hx hb hf'
    · rw [List.getElem?_cons_succ]
      exact marks_first lmin lmax g ts _ k t hs h hok hx hb hf'

/-- C108, lengths: the first tetrahedron in use with an edge is marked if the length of this edge in it is out of the bounds. -/
theorem C108_first [AddCommMonoid K] (lmin lmax : K) (M : Met) (ts : List (Chk K)) (k : Nat) (t : Chk K) (h : ts[k]? = some t) (hok : t.ok = true)
    (z : Sym2 Nat) (hz : ∃ i j, i < j ∧ j < 4 ∧ z = s(t.v i, t.v j))
    (hb : ∀ ia < 6, s(t.v (iare.getD ia (0, 0)).1, t.v (iare.getD ia (0, 0)).2) = z → Out lmin lmax (lenUsed M t ia))
    (hf : ∀ (j : Nat) (u : Chk K), j < k → ts[j]? = some u → u.ok = true → ¬ ∃ i j, i < j ∧ j < 4 ∧ z = s(u.v i, u.v j)) :
    (searchlen lmin lmax M ts)[k]? = some true := by
  have hj : ∀ t : Chk K, (∃ x ∈ sides3 (elt M t), norm x.1 = form z) ↔ ∃ i j, i < j ∧ j < 4 ∧ z = s(t.v i, t.v j) := by
    intro t
    have h1 := joins_iff (elt M t) (form z)
    rw [joins_form] at h1
    rw [List.mem_map] at h1
    exact h1
  have hx := (hj t).mpr hz
  have ht := List.mem_of_getElem? h
  have hin : form z ∈ hashed (ts.map (elt M)) := by
    unfold hashed
    rw [List.mem_flatMap]
    exact ⟨elt M t, List.mem_filter.mpr ⟨List.mem_map_of_mem ht, hok⟩, List.mem_map.mpr hx⟩
  refine marks_first lmin lmax (form z) (ts.map (elt M)) _ k (elt M t) hin (by rw [List.getElem?_map, h]; rfl) hok hx ?_ ?_
  · intro x hxs hxg
    obtain ⟨ia, h5, rfl⟩ := mem_sides.mp hxs
    exact hb ia h5 (form_inj hxg)
  · intro j u hjk hu huk x hxs hxg
    rw [List.getElem?_map, Option.map_eq_some_iff] at hu
    obtain ⟨w, hw, rfl⟩ := hu
    exact hf j w hjk hw huk ((hj w).mp ⟨x, hxs, hxg⟩)

/-- Two tetrahedra with a common edge `1 2`, of length 9; the other edges have length 1. -/
def pair : List (Chk Int) := [⟨true, fun i => [1, 2, 3, 4].getD i 0, 1, 1, fun i => [9, 1, 1, 1, 1, 1].getD i 0, fun i => [9, 1, 1, 1, 1, 1].getD i 0⟩,
  ⟨true, fun i => [1, 2, 4, 5].getD i 0, 1, 1, fun i => [9, 1, 1, 1, 1, 1].getD i 0, fun i => [9, 1, 1, 1, 1, 1].getD i 0⟩]

/-- C108 fails: of the tetrahedra around an edge that is too long one is marked, the others are not. -/
theorem C108_all_observed : ∃ (M : Met) (t : Chk Int), pair[1]? = some t ∧ t.ok = true ∧ Out 0 2 (t.len 0) ∧ Out 0 2 (t.len33 0) ∧
    searchlen 0 2 M pair = [true, false] :=
  ⟨⟨false, true, 6⟩, _, rfl, rfl, .inr (by decide), .inr (by decide), by decide +kernel⟩

/-- C108 fails: the lengths are those of the other storage. With a tensor in classic storage the function for the special storage is called, and the
one for classic tensors is called for tensors in special storage and for scalar sizes, where it reads `met->m[6*ip]` and following
(inlined_functions_3d_private.h:113), for most vertices out of the array; `MMG3D_searchqua` and the report on lengths do the opposite. -/
theorem C108_storage_observed (M : Met) (t : Chk K) :
    (M.rid = false ∧ M.m = true ∧ 1 < M.size → lenUsed M t = t.len) ∧ (M.rid = true → lenUsed M t = t.len33) ∧
      (M.size ≤ 1 → lenUsed M t = t.len33) := by
  unfold lenUsed Met.classic
  refine ⟨?_, ?_, ?_⟩
  · rintro ⟨h1, h2, h3⟩
    simp [h1, h2, h3]
  · intro h
    simp [h]
  · intro h
    have : ¬ 1 < M.size := by omega
    simp [this]

/-- C108, both tests: a tetrahedron is marked if and only if one of them marks it. -/
theorem C108_check (zero crit lmin lmax : K) (M : Met) (ts : List (Chk K)) (k : Nat) :
    (check zero crit lmin lmax M ts)[k]? = some true ↔
      k < ts.length ∧ ((searchqua zero crit M ts)[k]? = some true ∨ (searchlen lmin lmax M ts)[k]? = some true) := by
  have hm : ∀ (us : List (Elt K)) (s : List E), (marks lmin lmax s us).length = us.length := by
    intro us
    induction us with
    | nil => intro s; rfl
    | cons t us ih =>
      intro s
      unfold marks
      split <;> simp [ih]
  have h1 : (searchqua zero crit M ts).length = ts.length := by simp [searchqua]
  have h2 : (searchlen lmin lmax M ts).length = ts.length := by rw [searchlen, hm, List.length_map]
  unfold check
  by_cases hk : k < ts.length
  · rw [List.getElem?_zipWith, List.getElem?_eq_getElem (h1 ▸ hk), List.getElem?_eq_getElem (h2 ▸ hk)]
    simp [hk]
  · rw [List.getElem?_eq_none (by simp only [List.length_zipWith, h1, h2]; omega)]
    simp [hk]

/-! ### Cases -/

/-- The hypotheses of `C108_covered_partial` are met. -/
example : ∀ t ∈ pair, ∀ ia < 6, lenUsed ⟨false, true, 6⟩ t ia =
    (fun z : Sym2 Nat => if z = s(1, 2) then (9 : Int) else 1) s(t.v (iare.getD ia (0, 0)).1, t.v (iare.getD ia (0, 0)).2) := by
  decide +kernel

example : check 0 (1 : Int) 0 2 ⟨false, true, 6⟩ pair = [true, false] ∧ check 0 (2 : Int) 0 2 ⟨false, true, 6⟩ pair = [true, true] ∧
    searchlen 0 9 ⟨false, true, 6⟩ pair = [false, false] := by decide +kernel

end Mmg.LenRep
