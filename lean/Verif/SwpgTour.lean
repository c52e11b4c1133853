/-
  Lemmas on the choice of the configuration of an edge swap (`SwpgModel`).
-/
import Verif.SwpgModel
import Verif.Spl1bGeo

namespace Mmg.Swpg

open Mmg.Split3 hiding bary
open Mmg.Swap23 Mmg.Shell Mmg.Over
open Mmg.Spl1b (In Round Pre After)

section
variable {K : Type} [Field K] [LinearOrder K] {E : Env K} {used : Nat → Prop} {na nb : Nat}

/-- The mesh as `MMG5_coquil` sees it (used for its lists only). -/
def Env.m (E : Env K) : M := ⟨E.A, E.V, E.req, E.bdyf⟩

abbrev Env.sq (E : Env K) (na nb : Nat) (d : Nat × Nat) (j : Nat) : Nat × Nat := seq E.A E.V na nb d j

/-- Entry of the polygon. -/
def pent (V : Nat → List Nat) (na nb : Nat) (d : Nat × Nat) : Nat := 4 * d.1 + oth (V d.1) na nb d.2

def polOf (E : Env K) (na nb : Nat) (d : Nat × Nat) (n : Nat) : List Nat :=
  ((List.range (n + 1)).map fun j => pent E.V na nb (seq E.A E.V na nb d j)).reverse

theorem polOf_succ (d : Nat × Nat) (n : Nat) :
    polOf E na nb d (n + 1) = pent E.V na nb (seq E.A E.V na nb d (n + 1)) :: polOf E na nb d n := by
  simp [polOf, List.range_succ]

/-- What a complete tour means. -/
structure TourOK (E : Env K) (na nb : Nat) (d : Nat × Nat) (T : Nat) (l pol : List Nat) (c : K) : Prop where
  ex : ∃ N, N ≤ T ∧ Alive E.A E.V na nb d (N + 1) ∧
    (∀ i, 1 ≤ i → i ≤ N → (seq E.A E.V na nb d i).1 ≠ d.1) ∧
    (seq E.A E.V na nb d (N + 1)).1 = d.1 ∧
    (∀ i, 1 ≤ i → i ≤ N → E.req (seq E.A E.V na nb d i).1 = false ∧ E.tref (seq E.A E.V na nb d i).1 = E.tref d.1) ∧
    l = accOf E.m na nb d N ∧ pol = polOf E na nb d N ∧
    (∀ i ≤ N, c ≤ E.qual (seq E.A E.V na nb d i).1) ∧ ∃ i ≤ N, c = E.qual (seq E.A E.V na nb d i).1

theorem tour_spec (hm : Mesh E.A E.V used) {d : Nat × Nat} (h : Dart E.V used na nb d) (T : Nat) {l' pol' : List Nat}
    {c' : K} : ∀ fuel n c, fuel + n = T → Alive E.A E.V na nb d n →
      (∀ i, 1 ≤ i → i ≤ n → (seq E.A E.V na nb d i).1 ≠ d.1) →
      (∀ i, 1 ≤ i → i ≤ n → E.req (seq E.A E.V na nb d i).1 = false ∧ E.tref (seq E.A E.V na nb d i).1 = E.tref d.1) →
      (∀ i ≤ n, c ≤ E.qual (seq E.A E.V na nb d i).1) → (∃ i ≤ n, c = E.qual (seq E.A E.V na nb d i).1) →
      tour E d.1 na nb fuel (link E.A (seq E.A E.V na nb d n).1 (seq E.A E.V na nb d n).2)
        (pivot E.V na nb (seq E.A E.V na nb d n)) (accOf E.m na nb d n) (polOf E na nb d n) c = .closed l' pol' c' →
      TourOK E na nb d T l' pol' c' := by
  intro fuel
  induction fuel with
  | zero =>
    intro n c hT ha hne hreq hmin hex hr
    have hd := seq_dart hm h ha n le_rfl
    unfold tour at hr
    by_cases c1 : link E.A (seq E.A E.V na nb d n).1 (seq E.A E.V na nb d n).2 = 0
    · rw [if_pos c1] at hr; cases hr
    rw [if_neg c1] at hr
    by_cases c2 : link E.A (seq E.A E.V na nb d n).1 (seq E.A E.V na nb d n).2 / 4 = d.1
    · rw [if_pos c2] at hr
      cases hr
      exact ⟨n, by omega, alive_succ ha c1, hne, c2, hreq, rfl, rfl, hmin, hex⟩
    rw [if_neg c2] at hr
    split at hr
    · cases hr
    split at hr
    · cases hr
    split at hr
    · cases hr
    split at hr <;> cases hr
  | succ fuel ih =>
    intro n c hT ha hne hreq hmin hex hr
    have hd := seq_dart hm h ha n le_rfl
    unfold tour at hr
    by_cases c1 : link E.A (seq E.A E.V na nb d n).1 (seq E.A E.V na nb d n).2 = 0
    · rw [if_pos c1] at hr; cases hr
    rw [if_neg c1] at hr
    by_cases c2 : link E.A (seq E.A E.V na nb d n).1 (seq E.A E.V na nb d n).2 / 4 = d.1
    · rw [if_pos c2] at hr
      cases hr
      exact ⟨n, by omega, alive_succ ha c1, hne, c2, hreq, rfl, rfl, hmin, hex⟩
    rw [if_neg c2] at hr
    by_cases c3 : E.req (link E.A (seq E.A E.V na nb d n).1 (seq E.A E.V na nb d n).2 / 4) = true
    · rw [if_pos c3] at hr; cases hr
    rw [if_neg c3] at hr
    by_cases c4 : E.tref (link E.A (seq E.A E.V na nb d n).1 (seq E.A E.V na nb d n).2 / 4) ≠ E.tref d.1
    · rw [if_pos c4] at hr; cases hr
    rw [if_neg c4] at hr
    split at hr
    · cases hr
    obtain ⟨i, hi, _, hcase⟩ := step_ok hm hd c1
    have e0 : link E.A (seq E.A E.V na nb d n).1 (seq E.A E.V na nb d n).2 / 4 = (seq E.A E.V na nb d (n + 1)).1 := rfl
    have e1 : nxt E.A E.V na nb (seq E.A E.V na nb d n) = seq E.A E.V na nb d (n + 1) := rfl
    rw [e1] at hi hcase
    rw [e0] at c2 c3 c4 hr
    rw [hi] at hr
    dsimp only at hr
    have hreq' := upto_succ (P := fun i => E.req (seq E.A E.V na nb d i).1 = false ∧
      E.tref (seq E.A E.V na nb d i).1 = E.tref d.1) hreq ⟨by simpa using c3, by simpa using c4⟩
    have hacc : 6 * (seq E.A E.V na nb d (n + 1)).1 + i = entry E.V na nb (seq E.A E.V na nb d (n + 1)) := by
      simp [entry, edgeOf, hi]
    have hmin' : ∀ i ≤ n + 1, min c (E.qual (seq E.A E.V na nb d (n + 1)).1) ≤ E.qual (seq E.A E.V na nb d i).1 := by
      intro i hi
      rcases Nat.le_succ_iff.1 hi with h' | rfl
      · exact le_trans (min_le_left _ _) (hmin i h')
      · exact min_le_right _ _
    have hex' : ∃ i ≤ n + 1, min c (E.qual (seq E.A E.V na nb d (n + 1)).1) = E.qual (seq E.A E.V na nb d i).1 := by
      rcases min_choice c (E.qual (seq E.A E.V na nb d (n + 1)).1) with e | e
      · obtain ⟨i, hi, he⟩ := hex
        exact ⟨i, by omega, by rw [e]; exact he⟩
      · exact ⟨n + 1, le_rfl, e⟩
    have ee : ∀ x, entry E.V na nb x = entry E.m.V na nb x := fun _ => rfl
    rcases hcase with ⟨p1, p2, p3⟩ | ⟨p1, p2, p3, p4⟩
    · have pe : 4 * (seq E.A E.V na nb d (n + 1)).1 + (ifar i).2 = pent E.V na nb (seq E.A E.V na nb d (n + 1)) := by
        simp only [pent, p3]
      rw [if_pos p1, hacc, pe, ← polOf_succ, ← p2] at hr
      have := ih (n + 1) _ (by omega) (alive_succ ha c1) (upto_succ hne c2) hreq' hmin' hex'
      simp only [pivot, p3] at this
      rw [accOf_succ] at this
      exact this hr
    · have pe : 4 * (seq E.A E.V na nb d (n + 1)).1 + (ifar i).1 = pent E.V na nb (seq E.A E.V na nb d (n + 1)) := by
        simp only [pent, p4]
      rw [if_neg p1, if_pos p2, hacc, pe, ← polOf_succ, ← p3] at hr
      have := ih (n + 1) _ (by omega) (alive_succ ha c1) (upto_succ hne c2) hreq' hmin' hex'
      simp only [pivot, p4] at this
      rw [accOf_succ] at this
      exact this hr

/-! ### The tests -/

/-- What the tests on one tetrahedron guarantee. -/
structure Pass (E : Env K) (low : K) (np x : Nat) : Prop where
  a : facing E (x / 6) (iare.getD (x % 6) (0, 0)).1 np = false
  b : facing E (x / 6) (iare.getD (x % 6) (0, 0)).2 np = false
  ca : low < E.cal ((E.V (x / 6)).set (iare.getD (x % 6) (0, 0)).1 np)
  cb : low < E.cal ((E.V (x / 6)).set (iare.getD (x % 6) (0, 0)).2 np)
  bdy : ¬ (E.pbdy np = true ∧ E.pbdy ((E.V (x / 6)).getD (ifar (x % 6)).1 0) = true ∧
    E.pbdy ((E.V (x / 6)).getD (ifar (x % 6)).2 0) = true ∧
    (E.pbdy (ends (E.V (x / 6)) (x % 6)).1 = true ∨ E.pbdy (ends (E.V (x / 6)) (x % 6)).2 = true))

theorem test_spec {crit old c c' : K} {np x : Nat} (h : test E crit old np x c = some c') :
    Pass E (crit * old) np x := by
  unfold test at h
  dsimp only at h
  split at h
  · cases h
  rename_i h1
  split at h
  · cases h
  rename_i h2
  split at h
  · cases h
  rename_i h3
  split at h
  · cases h
  rename_i h4
  rw [Bool.or_eq_true, not_or] at h1
  refine ⟨by simpa using h1.1, by simpa using h1.2, ?_, ?_, ?_⟩
  · exact lt_of_lt_of_le (not_le.1 h3) (min_le_right _ _)
  · exact lt_of_lt_of_le (not_le.1 h4) (min_le_right _ _)
  · rintro ⟨a, b, d, e⟩
    apply h2
    rw [a, b, d]
    simpa [ends] using e

theorem tests_spec {crit old : K} {np n k : Nat} : ∀ (l : List Nat) (j : Nat) (c : K),
    tests E crit old np n k l j c = true → ∀ i < l.length, skip n k (j + i) = false → Pass E (crit * old) np (l.getD i 0)
  | [], _, _, _, i, hi, _ => absurd hi (by simp)
  | x :: r, j, c, h, i, hi, hs => by
    rw [tests] at h
    cases i with
    | zero =>
      rw [Nat.add_zero] at hs
      rw [hs] at h
      simp only [Bool.false_eq_true, if_false] at h
      split at h
      · cases h
      · rename_i c' hc
        exact test_spec hc
    | succ i =>
      have hs' : skip n k (j + 1 + i) = false := by rw [show j + 1 + i = j + (i + 1) by omega]; exact hs
      have hi' : i < r.length := by simpa using hi
      split at h
      · exact tests_spec r (j + 1) c h i hi' hs'
      · split at h
        · cases h
        · exact tests_spec r (j + 1) _ h i hi' hs'

theorem skip_iff {n k j : Nat} (hk : k < n) (hj : j < n) : skip n k j = true ↔ j = k ∨ j = (k + 1) % n := by
  unfold skip
  by_cases h : k < n - 1
  · rw [if_pos h, Nat.mod_eq_of_lt (by omega)]; simp
  · have : k + 1 = n := by omega
    rw [if_neg h, this, Nat.mod_self, show n - 1 = k by omega]; simp

/-- What an accepted configuration means: a closed tour of `n` tetrahedra around the edge (`P j`: entry, by tetrahedron and
local number, of the vertex of the polygon between the tetrahedra `j` and `j + 1`), such that all the tetrahedra but `k0`
and `k0 + 1`, which have the chosen vertex, pass the tests. -/
structure Choice (E : Env K) (used : Nat → Prop) (na nb : Nat) (crit : K) (start nconf : Nat) (l : List Nat) (c : K)
    (k0 : Nat) (P : Nat → Nat) : Prop where
  low : ∀ j < l.length, c ≤ E.qual (l.getD j 0 / 6)
  worst : ∃ j < l.length, c = E.qual (l.getD j 0 / 6)
  round : Round E.A E.V used na nb (fun j => l.getD j 0) l.length false
  refs : ∀ j < l.length, E.tref (l.getD j 0 / 6) = E.tref start
  lt : k0 < l.length
  conf : P k0 = nconf
  pol : ∀ j < l.length, P j / 4 = l.getD j 0 / 6 ∧ Thru (E.V (P j / 4)) na nb (P j % 4) ∧
    vtx E (P j) ∈ E.V (l.getD ((j + 1) % l.length) 0 / 6) ∧ vtx E (P j) ≠ vtx E (P ((j + 1) % l.length))
  fem : E.fem = true → E.pbdy (vtx E nconf) = true → ∀ j < l.length, j ≠ k0 → j ≠ (k0 + 1) % l.length →
    E.pbdy (vtx E (P j)) = false
  pass : ∀ j < l.length, j ≠ k0 → j ≠ (k0 + 1) % l.length → Pass E (crit * c) (vtx E nconf) (l.getD j 0)

theorem chkswpgen_spec (hm : Mesh E.A E.V used) {crit : K} {lmax start ia : Nat} (hs : used start) (hia : ia < 6)
    {nconf : Nat} {l : List Nat} (h : chkswpgen E crit lmax start ia = .conf nconf l) :
    ∃ c k0 P, Choice E used (ends (E.V start) ia).1 (ends (E.V start) ia).2 crit start nconf l c k0 P ∧
      l.length ≤ lmax - 3 - 1 + 1 ∧ l.getD 0 0 / 6 = start := by
  obtain ⟨hd, hrev, hpiv, _, hed⟩ := dart_start hm hs hia
  unfold chkswpgen at h
  dsimp only at h
  generalize (ends (E.V start) ia).1 = na at *
  generalize (ends (E.V start) ia).2 = nb at *
  split at h
  · cases h
  have ho : oth (E.V start) na nb (ifar ia).1 = (ifar ia).2 := congrArg Prod.snd hrev
  have key := fun l' pol' c' => tour_spec (E := E) hm hd (lmax - 3 - 1) (l' := l') (pol' := pol') (c' := c') (lmax - 3 - 1) 0
    (E.qual start) rfl (by intro i hi; omega) (by intro i _ _; omega) (by intro i _ _; omega)
    (by intro i hi; obtain rfl : i = 0 := by omega
        exact le_rfl) ⟨0, le_rfl, rfl⟩
  have e1 : accOf E.m na nb (start, (ifar ia).1) 0 = [6 * start + ia] := by
    show [entry E.V na nb (start, (ifar ia).1)] = _
    simp only [entry, hed]
  have e2 : polOf E na nb (start, (ifar ia).1) 0 = [4 * start + (ifar ia).2] := by
    show [pent E.V na nb (start, (ifar ia).1)] = _
    simp only [pent, ho]
  have e3 : seq E.A E.V na nb (start, (ifar ia).1) 0 = (start, (ifar ia).1) := rfl
  rw [e1, e2, e3, hpiv] at key
  split at h
  · cases h
  · cases h
  · cases h
  rename_i l' pol' c' ht
  obtain ⟨N, hN, ha, hne, hback, hreq, rfl, rfl, hmin, hex⟩ := (key l' pol' c' ht).ex
  split at h
  · cases h
  rename_i k0 hk
  have hacc := List.find?_some hk
  have hk0 := List.mem_range.1 (List.mem_of_find?_eq_some hk)
  cases h
  have hc := chain_one (used := used) hm hd ha hne hback
  have R := Spl1b.chain_round (m := E.m) hm hc
  have hpl : (polOf E na nb (start, (ifar ia).1) N).reverse.length = N + 1 := by simp [polOf]
  have hpl' : (polOf E na nb (start, (ifar ia).1) N).length = N + 1 := by simp [polOf]
  have hll : (accOf E.m na nb (start, (ifar ia).1) N).reverse.length = N + 1 := by simp [accOf]
  have hent : ∀ j ≤ N, ((accOf E.m na nb (start, (ifar ia).1) N).reverse).getD j 0 =
      entry E.V na nb (seq E.A E.V na nb (start, (ifar ia).1) j) := by
    intro j hj
    simp only [accOf, List.reverse_reverse]
    rw [List.getD_eq_getElem _ _ (by simp; omega)]
    simp [Env.m]
  have hpt : ∀ j ≤ N, ((polOf E na nb (start, (ifar ia).1) N).reverse).getD j 0 =
      pent E.V na nb (seq E.A E.V na nb (start, (ifar ia).1) j) := by
    intro j hj
    simp only [polOf, List.reverse_reverse]
    rw [List.getD_eq_getElem _ _ (by simp; omega)]
    simp
  have D := fun j (hj : j ≤ N) => seq_dart hm hd ha j (by omega)
  have hq : ∀ j ≤ N, ((accOf E.m na nb (start, (ifar ia).1) N).reverse).getD j 0 / 6 =
      (seq E.A E.V na nb (start, (ifar ia).1) j).1 := fun j hj => by
    rw [hent j hj]; exact (D j hj).edge.2.2.1
  rw [hpl'] at hk0
  unfold accepted at hacc
  rw [Bool.and_eq_true] at hacc
  refine ⟨c', k0, fun j => (polOf E na nb (start, (ifar ia).1) N).reverse.getD j 0, ?_, by rw [hll]; omega,
    by rw [hq 0 (by omega)]; rfl⟩
  constructor
  · intro j hj
    rw [hll] at hj
    rw [hq j (by omega)]
    exact hmin j (by omega)
  · obtain ⟨j, hj, he⟩ := hex
    exact ⟨j, by rw [hll]; omega, by rw [hq j hj]; exact he⟩
  · rw [hll]
    exact R
  · intro j hj
    rw [hll] at hj
    rw [hq j (by omega)]
    cases j with
    | zero => rfl
    | succ j => exact (hreq (j + 1) (by omega) (by omega)).2
  · rw [hll]; exact hk0
  · rfl
  · intro j hj
    rw [hll] at hj
    have Dj := D j (by omega)
    obtain ⟨_, th, _⟩ := face_thru Dj.has Dj.thru
    have q1 : pent E.V na nb (seq E.A E.V na nb (start, (ifar ia).1) j) / 4 = (seq E.A E.V na nb (start, (ifar ia).1) j).1 := by
      have := th.1
      unfold pent
      omega
    have q2 : pent E.V na nb (seq E.A E.V na nb (start, (ifar ia).1) j) % 4 =
        oth (E.V (seq E.A E.V na nb (start, (ifar ia).1) j).1) na nb (seq E.A E.V na nb (start, (ifar ia).1) j).2 := by
      have := th.1
      unfold pent
      omega
    have hx := Dj.cross hm (ha j (by omega))
    have Dn := Dj.nx hm (ha j (by omega))
    simp only [hpt j (by omega), q1, q2, hq j (by omega), vtx, hll]
    have hnx : ((polOf E na nb (start, (ifar ia).1) N).reverse).getD ((j + 1) % (N + 1)) 0 =
        pent E.V na nb (nxt E.A E.V na nb (seq E.A E.V na nb (start, (ifar ia).1) j)) := by
      by_cases hjN : j = N
      · subst hjN
        rw [Nat.mod_self, hpt 0 (by omega)]
        exact congrArg (pent E.V na nb) (hc.closed rfl).2.1.symm
      · rw [Nat.mod_eq_of_lt (by omega), hpt (j + 1) (by omega)]
        rfl
    obtain ⟨_, th', _, ne'⟩ := face_thru Dn.1.has Dn.1.thru
    have r1 : pent E.V na nb (nxt E.A E.V na nb (seq E.A E.V na nb (start, (ifar ia).1) j)) / 4 =
        (nxt E.A E.V na nb (seq E.A E.V na nb (start, (ifar ia).1) j)).1 := by
      have := th'.1
      unfold pent
      omega
    have r2 : pent E.V na nb (nxt E.A E.V na nb (seq E.A E.V na nb (start, (ifar ia).1) j)) % 4 =
        oth (E.V (nxt E.A E.V na nb (seq E.A E.V na nb (start, (ifar ia).1) j)).1) na nb
          (nxt E.A E.V na nb (seq E.A E.V na nb (start, (ifar ia).1) j)).2 := by
      have := th'.1
      unfold pent
      omega
    rw [hnx, r1, r2, hx.2.2.2.2]
    refine ⟨trivial, th, ?_, fun h => ne' (Spl1b.getD_inj Dn.1.has.len Dn.1.has.nd Dn.1.thru.1 th'.1 h).symm⟩
    have hn : (((accOf E.m na nb (start, (ifar ia).1) N).reverse).getD ((j + 1) % (N + 1)) 0) / 6 =
        (nxt E.A E.V na nb (seq E.A E.V na nb (start, (ifar ia).1) j)).1 := by
      by_cases hjN : j = N
      · subst hjN
        rw [Nat.mod_self, hq 0 (by omega)]
        exact (congrArg Prod.fst (hc.closed rfl).2.1).symm
      · rw [Nat.mod_eq_of_lt (by omega), hq (j + 1) (by omega)]
        rfl
    rw [hn, List.getD_eq_getElem _ _ (by rw [Dn.1.has.len]; exact Dn.1.thru.1)]
    exact List.getElem_mem _
  · intro hf hb j hj j1 j2
    rw [hll] at hj j2
    have hfb := hacc.1
    unfold femBad at hfb
    rw [hpl, hf, hb] at hfb
    simp only [Bool.true_and, Bool.not_eq_true', List.any_eq_false, List.mem_range, Bool.and_eq_true, not_and,
      Bool.not_eq_true] at hfb
    refine hfb j hj ?_
    rw [← Bool.not_eq_true, skip_iff hk0 hj]
    rintro (h | h) <;> contradiction
  · intro j hj j1 j2
    rw [hll] at hj j2
    have := tests_spec _ 0 1 hacc.2 j (by rw [hll]; exact hj)
    rw [hpl, Nat.zero_add] at this
    refine this ?_
    rw [← Bool.not_eq_true, skip_iff hk0 hj]
    rintro (h | h) <;> contradiction

end

end Mmg.Swpg
