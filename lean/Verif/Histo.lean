/-
  C68. Statistics on the qualities and the verdict they give: theorems and concrete cases.
-/
import Verif.HistoModel

namespace Mmg.Histo

variable {K : Type} [Field K] [LinearOrder K] [IsStrictOrderedRing K] [FloorSemiring K]

/-! ### Specification -/

/-- The qualities that count. -/
def quals (keep : Slot K → Bool) (ts : List (Slot K)) : List K := (ts.filter keep).map (·.rap)

/-- The quality `q` is in the class `i` of the histogram: `i/5 ≤ q < (i+1)/5`, the last class being open
above. -/
def InBin (i : Nat) (q : K) : Prop := (i : K) / 5 ≤ q ∧ (i < 4 → q < ((i : K) + 1) / 5)

instance (i : Nat) (q : K) : Decidable (InBin i q) := inferInstanceAs (Decidable (_ ∧ _))

/-- The statistics `s` are those of the qualities `L`. -/
structure Stats (L : List K) (s : Stat K) : Prop where
  his : ∀ i < 5, s.his.getD i 0 = L.countP fun q => decide (InBin i q)
  sum : s.his.sum = L.length
  good : s.good = L.countP fun q => decide (12 / 100 < q)
  med : s.med = L.countP fun q => decide (1 / 2 < q)
  bad : s.badkal = true ↔ ∃ q ∈ L, q < 1 / 5
  avg : s.avg = L.sum
  max_le : ∀ q ∈ L, q ≤ s.max
  max_mem : L ≠ [] → s.max ∈ L
  le_min : ∀ q ∈ L, s.min ≤ q
  min_mem : L ≠ [] → s.min ∈ L

/-! ### Lemmas -/

theorem bin_lt (q : K) : bin q < 5 := by unfold bin; omega

theorem bin_iff {q : K} (hq : 0 ≤ q) {i : Nat} (hi : i < 5) : bin q = i ↔ InBin i q := by
  have h5 : (0 : K) ≤ 5 * q := by linarith
  have key : ∀ j : Nat, (j : K) / 5 ≤ q ↔ j ≤ ⌊5 * q⌋₊ := by
    intro j
    rw [Nat.le_floor_iff h5, div_le_iff₀ (by norm_num), mul_comm]
  have key' : q < ((i : K) + 1) / 5 ↔ ⌊5 * q⌋₊ < i + 1 := by
    rw [← not_le, ← not_le, not_iff_not]
    have := key (i + 1)
    push_cast at this
    exact this
  unfold InBin
  rw [key, key']
  unfold bin
  omega

theorem getD_modify (l : List Nat) (b i : Nat) (hb : b < l.length) :
    (l.modify b (· + 1)).getD i 0 = l.getD i 0 + if b = i then 1 else 0 := by
  simp only [List.getD_eq_getElem?_getD, List.getElem?_modify]
  by_cases h : b = i
  · subst h
    simp [List.getElem?_eq_getElem hb]
  · simp [h]

theorem sum_modify : ∀ (l : List Nat) (b : Nat), b < l.length → (l.modify b (· + 1)).sum = l.sum + 1
  | [], b, h => by simp at h
  | x :: l, 0, _ => by simp [List.modify]; omega
  | x :: l, b + 1, h => by
    have := sum_modify l b (by simpa using h)
    simp only [List.modify_succ_cons, List.sum_cons, this]
    omega

/-- State of the loop: statistics of the qualities seen so far. -/
structure Inv (L : List K) (s : Stat K) : Prop where
  len : s.his.length = 5
  his : ∀ i < 5, s.his.getD i 0 = L.countP fun q => decide (InBin i q)
  sum : s.his.sum = L.length
  good : s.good = L.countP fun q => decide (12 / 100 < q)
  med : s.med = L.countP fun q => decide (1 / 2 < q)
  bad : s.badkal = true ↔ ∃ q ∈ L, q < 1 / 5
  avg : s.avg = L.sum
  max_le : ∀ q ∈ L, q ≤ s.max
  max_mem : s.max = 0 ∧ L = [] ∨ s.max ∈ L
  le_min : ∀ q ∈ L, s.min ≤ q
  min_mem : s.min = 2 ∧ L = [] ∨ s.min ∈ L

theorem inv_init : Inv ([] : List K) init := by
  refine ⟨rfl, ?_, by simp [init], by simp [init], by simp [init], by simp [init], by simp [init], by simp,
    by simp [init], by simp, by simp [init]⟩
  intro i hi
  rcases i with _ | _ | _ | _ | _ | i <;> first | rfl | omega

theorem inv_ok {L : List K} {s : Stat K} (h : Inv L s) (ok nex nrid : Nat) :
    Inv L { s with ok := ok, nex := nex, nrid := nrid } :=
  ⟨h.len, h.his, h.sum, h.good, h.med, h.bad, h.avg, h.max_le, h.max_mem, h.le_min, h.min_mem⟩

theorem inv_account {L : List K} {s : Stat K} (h : Inv L s) {q : K} (h0 : 0 ≤ q) (h2 : q < 2) :
    Inv (L ++ [q]) (account s q) := by
  have hb := bin_lt q
  refine ⟨by simp [account, h.len], ?_, ?_, ?_, ?_, ?_, ?_, ?_, ?_, ?_, ?_⟩
  · intro i hi
    simp only [account]
    rw [getD_modify _ _ _ (by rw [h.len]; exact hb), h.his i hi, List.countP_append, List.countP_singleton]
    congr 1
    by_cases hc : bin q = i
    · rw [if_pos hc, if_pos (by simpa using (bin_iff h0 hi).1 hc)]
    · rw [if_neg hc, if_neg (by simpa using fun x => hc ((bin_iff h0 hi).2 x))]
  · simp only [account]
    rw [sum_modify _ _ (by rw [h.len]; exact hb), h.sum]; simp
  · simp only [account, List.countP_append, List.countP_singleton, ← h.good]
    by_cases hc : (12 : K) / 100 < q <;> simp [hc]
  · simp only [account, List.countP_append, List.countP_singleton, ← h.med]
    by_cases hc : (1 : K) / 2 < q
    · rw [if_pos hc, if_pos (by simpa using hc)]
    · rw [if_neg hc, if_neg (by simpa using hc)]; rfl
  · simp only [account, List.mem_append, List.mem_singleton]
    by_cases hc : q < 1 / 5
    · rw [if_pos hc]
      exact ⟨fun _ => ⟨q, .inr rfl, hc⟩, fun _ => rfl⟩
    · rw [if_neg hc, h.bad]
      constructor
      · rintro ⟨x, hx, hx'⟩; exact ⟨x, .inl hx, hx'⟩
      · rintro ⟨x, hx | rfl, hx'⟩
        · exact ⟨x, hx, hx'⟩
        · exact absurd hx' hc
  · simp [account, h.avg]
  · intro x hx
    simp only [account]
    rcases List.mem_append.1 hx with hx | hx
    · have := h.max_le x hx
      split_ifs with hc
      · exact this
      · exact this.trans (not_lt.1 hc)
    · rw [List.mem_singleton.1 hx]
      split_ifs with hc
      · exact hc.le
      · exact le_rfl
  · right
    simp only [account]
    rcases h.max_mem with ⟨e, _⟩ | hm
    · rw [e, if_neg (not_lt.2 h0)]; simp
    · split_ifs <;> simp [hm]
  · intro x hx
    simp only [account]
    rcases List.mem_append.1 hx with hx | hx
    · have := h.le_min x hx
      split_ifs with hc
      · exact hc.le.trans this
      · exact this
    · rw [List.mem_singleton.1 hx]
      split_ifs with hc
      · exact le_rfl
      · exact not_lt.1 hc
  · right
    simp only [account]
    rcases h.min_mem with ⟨e, _⟩ | hm
    · rw [e, if_pos h2]; simp
    · split_ifs <;> simp [hm]

/-- The tetrahedra taken into account at the end of the remeshing. -/
def keepOut (metRidTyp : Bool) (t : Slot K) : Bool := t.used && !(metRidTyp && t.rid)

theorem stepOut_false (s : Stat K) (t : Slot K) : stepOut false s t = stepIn s t := by
  simp [stepOut, stepIn]

theorem computeOut_false (ts : List (Slot K)) : computeOut false ts = computeIn ts := by
  unfold computeOut computeIn
  have : stepOut (K := K) false = stepIn := by funext s t; exact stepOut_false s t
  rw [this]

/-- Prefix invariant with the counters: the worst element is the first one with the worst quality, and
`iel` is its rank among the used ones. -/
structure Cnt (r : Bool) (ts : List (Slot K)) (s : Stat K) : Prop where
  inv : Inv (quals (keepOut r) ts) s
  nex : s.nex = ts.countP fun t => !t.used
  ok : s.ok = ts.countP fun t => t.used
  nrid : s.nrid = ts.countP fun t => t.used && (r && t.rid)
  iel : quals (keepOut r) ts ≠ [] → 1 ≤ s.iel ∧ ∃ t, (ts.filter (·.used))[s.iel - 1]? = some t ∧
    keepOut r t = true ∧ t.rap = s.min ∧
    ∀ j < s.iel - 1, ∀ u, (ts.filter (·.used))[j]? = some u → keepOut r u = true → s.min < u.rap

theorem cnt_step {r : Bool} {ts : List (Slot K)} {s : Stat K} (h : Cnt r ts s) (t : Slot K)
    (ht : keepOut r t = true → 0 ≤ t.rap ∧ t.rap < 2) : Cnt r (ts ++ [t]) (stepOut r s t) := by
  unfold stepOut
  by_cases hu : t.used = true
  swap
  · have hu : t.used = false := by simpa using hu
    have hk : keepOut r t = false := by simp [keepOut, hu]
    have e : quals (keepOut r) (ts ++ [t]) = quals (keepOut r) ts := by simp [quals, hk]
    simp only [hu, Bool.not_false, if_true]
    refine ⟨by rw [e]; exact inv_ok h.inv s.ok (s.nex + 1) s.nrid, ?_, ?_, ?_, ?_⟩
    · simp [h.nex, hu]
    · simp [h.ok, hu]
    · simp [h.nrid, hu]
    · rw [e]
      intro hne
      have := h.iel hne
      simpa [List.filter_append, hu] using this
  have hlen : (ts.filter (·.used)).length = s.ok := by rw [h.ok, List.countP_eq_length_filter]
  have hf : (ts ++ [t]).filter (·.used) = ts.filter (·.used) ++ [t] := by simp [List.filter_append, hu]
  simp only [hu, Bool.not_true, Bool.false_eq_true, if_false]
  by_cases hr : (r && t.rid) = true
  · have hk : keepOut r t = false := by simp [keepOut, hu, hr]
    have e : quals (keepOut r) (ts ++ [t]) = quals (keepOut r) ts := by simp [quals, hk]
    simp only [hr, if_true]
    refine ⟨by rw [e]; exact inv_ok h.inv (s.ok + 1) s.nex (s.nrid + 1), ?_, ?_, ?_, ?_⟩
    · simp [h.nex, hu]
    · simp [h.ok, hu]
    · rw [List.countP_append, ← h.nrid]
      simp [hu, hr]
    · rw [e]
      intro hne
      obtain ⟨a, x, b, c, d, f⟩ := h.iel hne
      have hlt := (List.getElem?_eq_some_iff.1 b).1
      refine ⟨a, x, ?_, c, d, ?_⟩
      · rw [hf, List.getElem?_append_left hlt]; exact b
      · intro j hj u hu'
        rw [hf, List.getElem?_append_left (lt_trans hj hlt)] at hu'
        exact f j hj u hu'
  · have hk : keepOut r t = true := by simp only [keepOut, hu, Bool.true_and]; rw [Bool.not_eq_true _ |>.mp hr]; rfl
    have hk0 := ht hk
    have e : quals (keepOut r) (ts ++ [t]) = quals (keepOut r) ts ++ [t.rap] := by simp [quals, hk]
    rw [if_neg (by simpa using hr)]
    refine ⟨by rw [e]; exact inv_account (inv_ok h.inv (s.ok + 1) s.nex s.nrid) hk0.1 hk0.2, ?_, ?_, ?_, ?_⟩
    · simp [account, h.nex, hu]
    · simp [account, h.ok, hu]
    · simp only [account]
      rw [List.countP_append, ← h.nrid]
      simp only [List.countP_singleton, hu, Bool.true_and]
      simp [hr]
    · intro _
      simp only [account]
      by_cases hc : t.rap < s.min
      · rw [if_pos hc, if_pos hc]
        refine ⟨by omega, t, ?_, hk, rfl, ?_⟩
        · rw [hf, List.getElem?_append_right (by omega)]
          simp [hlen]
        · intro j hj u hu' hku
          rw [hf, List.getElem?_append_left (by omega)] at hu'
          refine lt_of_lt_of_le hc (h.inv.le_min _ ?_)
          have hm := List.mem_filter.1 (List.mem_of_getElem? hu')
          exact List.mem_map.2 ⟨u, List.mem_filter.2 ⟨hm.1, hku⟩, rfl⟩
      · rw [if_neg hc, if_neg hc]
        have hne : quals (keepOut r) ts ≠ [] := by
          intro hn
          rcases h.inv.min_mem with ⟨e2, _⟩ | hm
          · rw [e2] at hc; exact hc hk0.2
          · rw [hn] at hm; simp at hm
        obtain ⟨a, x, b, c, d, f⟩ := h.iel hne
        have hlt := (List.getElem?_eq_some_iff.1 b).1
        refine ⟨a, x, ?_, c, d, ?_⟩
        · rw [hf, List.getElem?_append_left hlt]; exact b
        · intro j hj u hu'
          rw [hf, List.getElem?_append_left (lt_trans hj hlt)] at hu'
          exact f j hj u hu'

theorem cnt_init (r : Bool) : Cnt r ([] : List (Slot K)) init :=
  ⟨inv_init, by simp [init], by simp [init], by simp [init], fun h => by simp [quals] at h⟩

theorem cnt_fold (r : Bool) : ∀ (us ts : List (Slot K)) (s : Stat K), Cnt r ts s →
    (∀ t ∈ us, keepOut r t = true → 0 ≤ t.rap ∧ t.rap < 2) → Cnt r (ts ++ us) (us.foldl (stepOut r) s)
  | [], ts, s, h, _ => by simpa using h
  | t :: us, ts, s, h, hq => by
    have := cnt_fold r us (ts ++ [t]) (stepOut r s t) (cnt_step h t (hq t (by simp)))
      (fun u hu => hq u (by simp [hu]))
    simpa using this

/-- The qualities are in the range of C67. -/
def Range (r : Bool) (ts : List (Slot K)) : Prop := ∀ t ∈ ts, keepOut r t = true → 0 ≤ t.rap ∧ t.rap < 2

theorem cnt_out (r : Bool) {ts : List (Slot K)} (h : Range r ts) : Cnt r ts (computeOut r ts) := by
  have := cnt_fold r ts [] init (cnt_init r) h
  rwa [List.nil_append] at this

theorem ne_eq (ts : List (Slot K)) :
    ts.length - (ts.countP fun t => !t.used) = ts.countP fun t => t.used := by
  induction ts with
  | nil => rfl
  | cons t ts ih =>
    have hle : ts.countP (fun t => !t.used) ≤ ts.length := List.countP_le_length
    simp only [List.countP_cons, List.length_cons]
    rcases hu : t.used <;> simp <;> omega

/-! ## C68 -/

/-- **C68.** Before the remeshing: the counts of the classes, the counts above 0.12 and 0.5, the sum, the
best and the worst are exactly those of the used tetrahedra. -/
theorem C68_stats {ts : List (Slot K)} (h : Range false ts) :
    Stats (quals (·.used) ts) (computeIn ts) ∧ (computeIn ts).ne ts = (quals (·.used) ts).length := by
  have hc := cnt_out false h
  rw [computeOut_false] at hc
  have e : keepOut (K := K) false = (·.used) := by funext t; simp [keepOut]
  have hi := hc.inv
  rw [e] at hi
  refine ⟨⟨hi.his, hi.sum, hi.good, hi.med, hi.bad, hi.avg, hi.max_le, fun hn => ?_, hi.le_min, fun hn => ?_⟩, ?_⟩
  · exact hi.max_mem.resolve_left fun x => hn x.2
  · exact hi.min_mem.resolve_left fun x => hn x.2
  · unfold Stat.ne
    rw [hc.nex, quals, List.length_map, ← List.countP_eq_length_filter]
    exact ne_eq ts

/-- **C68.** The printed number of the worst element is the rank, among the used tetrahedra, of the first
one with the worst quality. -/
theorem C68_worst {ts : List (Slot K)} (h : Range false ts) (hn : quals (·.used) ts ≠ []) :
    1 ≤ (computeIn ts).iel ∧
    (quals (·.used) ts)[(computeIn ts).iel - 1]? = some (computeIn ts).min ∧
    ∀ j < (computeIn ts).iel - 1, ∀ q, (quals (·.used) ts)[j]? = some q → (computeIn ts).min < q := by
  have hc := cnt_out false h
  rw [computeOut_false] at hc
  have e : keepOut (K := K) false = (·.used) := by funext t; simp [keepOut]
  obtain ⟨a, x, b, _, d, f⟩ := hc.iel (by rw [e]; exact hn)
  refine ⟨a, ?_, ?_⟩
  · simp only [quals, List.getElem?_map, b, Option.map_some, d]
  · intro j hj q hq
    simp only [quals, List.getElem?_map, Option.map_eq_some_iff] at hq
    obtain ⟨u, hu, rfl⟩ := hq
    refine f j hj u hu ?_
    rw [e]
    exact (List.mem_filter.1 (List.mem_of_getElem? hu)).2

/-- **C68.** The verdict before the remeshing: failure exactly if there is something to print and a used
tetrahedron has a quality below the threshold. -/
theorem C68_verdict {nulkal : K} (hk : nulkal ≤ 2) (imprim : Int) {ts : List (Slot K)} (h : Range false ts) :
    inqua nulkal imprim ts = false ↔ 0 < imprim ∧ ∃ t ∈ ts, t.used = true ∧ t.rap < nulkal := by
  have hc := cnt_out false h
  rw [computeOut_false] at hc
  have e : keepOut (K := K) false = (·.used) := by funext t; simp [keepOut]
  have hi := hc.inv
  rw [e] at hi
  unfold inqua minQualCheck
  by_cases hp : imprim ≤ 0
  · rw [if_pos hp]
    exact ⟨fun x => by simp at x, fun x => absurd x.1 (by omega)⟩
  rw [if_neg hp, mul_one]
  simp only [Bool.not_eq_false', decide_eq_true_eq]
  constructor
  · intro hm
    refine ⟨by omega, ?_⟩
    rcases hi.min_mem with ⟨e2, _⟩ | hm'
    · rw [e2] at hm; exact absurd hm (not_lt.2 hk)
    · obtain ⟨t, ht, e2⟩ := List.mem_map.1 hm'
      have := List.mem_filter.1 ht
      exact ⟨t, this.1, this.2, by rw [e2]; exact hm⟩
  · rintro ⟨_, t, ht, hu, hq⟩
    exact lt_of_le_of_lt (hi.le_min _ (List.mem_map.2 ⟨t, List.mem_filter.2 ⟨ht, hu⟩, rfl⟩)) hq

/-- **C68.** If the worst quality is below 1 every class with an element is printed with its count, and
nothing else but empty classes between them. -/
theorem C68_rows {ts : List (Slot K)} (h : Range false ts) (h1 : ∃ t ∈ ts, t.used = true ∧ t.rap < 1) :
    (∀ i < 5, (∃ t ∈ ts, t.used = true ∧ InBin i t.rap) →
      (i, ts.countP fun t => t.used && decide (InBin i t.rap)) ∈ rows (computeIn ts)) ∧
    ∀ p ∈ rows (computeIn ts), p.1 < 5 ∧ p.2 = ts.countP fun t => t.used && decide (InBin p.1 t.rap) := by
  obtain ⟨hs, _⟩ := C68_stats h
  have hcount : ∀ i < 5, (computeIn ts).his.getD i 0 = ts.countP fun t => t.used && decide (InBin i t.rap) := by
    intro i hi
    rw [hs.his i hi, quals, List.countP_map, List.countP_filter]
    congr 1
    funext t
    simp [Function.comp, Bool.and_comm]
  have memq : ∀ t ∈ ts, t.used = true → t.rap ∈ quals (·.used) ts :=
    fun t ht hu => List.mem_map.2 ⟨t, List.mem_filter.2 ⟨ht, hu⟩, rfl⟩
  have rng : ∀ q ∈ quals (·.used) ts, 0 ≤ q := by
    intro q hq
    obtain ⟨t, ht, rfl⟩ := List.mem_map.1 hq
    have := List.mem_filter.1 ht
    exact (h t this.1 (by simp [keepOut, this.2])).1
  obtain ⟨t1, ht1, hu1, hlt1⟩ := h1
  have hne : quals (·.used) ts ≠ [] := List.ne_nil_of_mem (memq t1 ht1 hu1)
  have hmin1 : (computeIn ts).min < 1 := lt_of_le_of_lt (hs.le_min _ (memq t1 ht1 hu1)) hlt1
  have hmin0 := rng _ (hs.min_mem hne)
  constructor
  · rintro i hi ⟨t, ht, hu, hb⟩
    unfold rows
    rw [List.mem_map]
    refine ⟨i, List.mem_filter.2 ⟨by simpa using hi, ?_⟩, by rw [hcount i hi]⟩
    have hq := memq t ht hu
    have hbq := (bin_iff (rng _ hq) hi).2 hb
    rw [decide_eq_true_eq]
    constructor
    · rw [← hbq]
      unfold bin
      have : ⌊5 * t.rap⌋₊ ≤ ⌊5 * (computeIn ts).max⌋₊ := Nat.floor_le_floor (by linarith [hs.max_le _ hq])
      omega
    · have a : ⌊5 * (computeIn ts).min⌋₊ ≤ ⌊5 * t.rap⌋₊ := Nat.floor_le_floor (by linarith [hs.le_min _ hq])
      have b : ⌊5 * (computeIn ts).min⌋₊ < 5 := by
        rw [Nat.floor_lt (by linarith)]
        push_cast
        linarith
      unfold bin at hbq
      omega
  · intro p hp
    unfold rows at hp
    obtain ⟨i, hi, rfl⟩ := List.mem_map.1 hp
    have hi5 : i < 5 := by simpa using (List.mem_filter.1 hi).1
    exact ⟨hi5, hcount i hi5⟩

/-- **C68.** If the worst quality is 1 or more no class is printed at all. -/
theorem C68_no_row {ts : List (Slot K)} (h : Range false ts) (h1 : ∀ t ∈ ts, t.used = true → 1 ≤ t.rap) :
    rows (computeIn ts) = [] := by
  have hc := cnt_out false h
  rw [computeOut_false] at hc
  have hm : 1 ≤ (computeIn ts).min := by
    rcases hc.inv.min_mem with ⟨e, _⟩ | hm
    · rw [e]; norm_num
    · obtain ⟨t, ht, e⟩ := List.mem_map.1 hm
      have := List.mem_filter.1 ht
      rw [← e]
      exact h1 t this.1 (by simpa [keepOut] using this.2)
  have : 5 ≤ ⌊5 * (computeIn ts).min⌋₊ := by
    rw [Nat.le_floor_iff (by linarith)]
    push_cast
    linarith
  unfold rows
  rw [List.map_eq_nil_iff, List.filter_eq_nil_iff]
  intro i hi
  have : i < 5 := by simpa using hi
  simp
  omega

/-- **C68.** After the remeshing with an anisotropic metric: the counts are those of the tetrahedra whose
vertices are not all ridge points; the others are counted apart, but they are part of the printed number
of elements. -/
theorem C68_stats_out (r : Bool) {ts : List (Slot K)} (h : Range r ts) :
    Stats (quals (keepOut r) ts) (computeOut r ts) ∧
    (computeOut r ts).nrid = ts.countP (fun t => t.used && (r && t.rid)) ∧
    (computeOut r ts).ne ts = (quals (keepOut r) ts).length + (computeOut r ts).nrid := by
  have hc := cnt_out r h
  have hi := hc.inv
  refine ⟨⟨hi.his, hi.sum, hi.good, hi.med, hi.bad, hi.avg, hi.max_le, fun hn => ?_, hi.le_min, fun hn => ?_⟩,
    hc.nrid, ?_⟩
  · exact hi.max_mem.resolve_left fun x => hn x.2
  · exact hi.min_mem.resolve_left fun x => hn x.2
  · unfold Stat.ne
    rw [hc.nex, hc.nrid, quals, List.length_map, ← List.countP_eq_length_filter]
    induction ts with
    | nil => simp
    | cons t ts ih =>
      have ih := ih (fun u hu => h u (by simp [hu])) (cnt_out r fun u hu => h u (by simp [hu]))
        (cnt_out r fun u hu => h u (by simp [hu])).inv
      have hle : ts.countP (fun t => !t.used) ≤ ts.length := List.countP_le_length
      simp only [List.countP_cons, List.length_cons, keepOut] at ih ⊢
      by_cases hu : t.used = true <;> by_cases hr : (r && t.rid) = true <;>
        simp only [hu, hr, Bool.not_true, Bool.not_false, Bool.and_true, Bool.and_false, Bool.true_and,
          Bool.false_and, Bool.not_eq_true _ |>.mp, if_true, if_false, Bool.false_eq_true] at ih ⊢ <;>
        omega

/-- **C68.** The verdict after the remeshing. -/
theorem C68_verdict_out (r : Bool) {nulkal : K} (hk : nulkal ≤ 2) (imprim : Int) {ts : List (Slot K)}
    (h : Range r ts) :
    outqua nulkal imprim r ts = false ↔
      0 < imprim ∧ ∃ t ∈ ts, t.used = true ∧ (r && t.rid) = false ∧ t.rap < nulkal := by
  have hi := (cnt_out r h).inv
  unfold outqua minQualCheck
  by_cases hp : imprim ≤ 0
  · rw [if_pos hp]
    exact ⟨fun x => by simp at x, fun x => absurd x.1 (by omega)⟩
  rw [if_neg hp, mul_one]
  simp only [Bool.not_eq_false', decide_eq_true_eq]
  constructor
  · intro hm
    refine ⟨by omega, ?_⟩
    rcases hi.min_mem with ⟨e2, _⟩ | hm'
    · rw [e2] at hm; exact absurd hm (not_lt.2 hk)
    · obtain ⟨t, ht, e2⟩ := List.mem_map.1 hm'
      obtain ⟨h1, h2⟩ := List.mem_filter.1 ht
      simp only [keepOut, Bool.and_eq_true, Bool.not_eq_true'] at h2
      exact ⟨t, h1, h2.1, h2.2, by rw [e2]; exact hm⟩
  · rintro ⟨_, t, ht, hu, hr, hq⟩
    refine lt_of_le_of_lt (hi.le_min _ (List.mem_map.2 ⟨t, List.mem_filter.2 ⟨ht, ?_⟩, rfl⟩)) hq
    simp [keepOut, hu, hr]

/-- **C68.** The printed average is the average over all the tetrahedra only if none has four ridge
points: otherwise it is too low. -/
theorem C68_average (r : Bool) {ts : List (Slot K)} (h : Range r ts) (hn : quals (keepOut r) ts ≠ [])
    (hp : 0 < (quals (keepOut r) ts).sum) :
    avgOut (computeOut r ts) ts ≤ (quals (keepOut r) ts).sum / (quals (keepOut r) ts).length ∧
    (avgOut (computeOut r ts) ts = (quals (keepOut r) ts).sum / (quals (keepOut r) ts).length ↔
      (computeOut r ts).nrid = 0) := by
  obtain ⟨hs, _, hne⟩ := C68_stats_out r h
  have hl : 0 < (quals (keepOut r) ts).length := List.length_pos_iff.2 hn
  have hl' : (0 : K) < (quals (keepOut r) ts).length := by exact_mod_cast hl
  unfold avgOut
  rw [hs.avg, hne]
  push_cast
  have h0 : (0 : K) ≤ ((computeOut r ts).nrid : K) := Nat.cast_nonneg _
  constructor
  · exact div_le_div_of_nonneg_left hp.le hl' (by linarith)
  · rw [div_eq_div_iff (by linarith) (by linarith)]
    constructor
    · intro e
      have := mul_left_cancel₀ hp.ne' e
      have : ((computeOut r ts).nrid : K) = 0 := by linarith
      exact_mod_cast this
    · intro e; rw [e]; simp

/-- **C68.** The test on the mesh given by the user: refused exactly if a used tetrahedron (without four
ridge points if the metric is already stored the special way) has a normalised quality below the
threshold. -/
theorem C68_input {nulkal alpha : K} (ha : 0 < alpha) (hk : nulkal ≤ 2) (r : Bool) (ts : List (Slot K)) :
    (tetraQual nulkal alpha r ts).1 = false ↔
      ∃ t ∈ ts, t.used = true ∧ (r && t.rid) = false ∧ t.rap * alpha < nulkal := by
  have key : ∀ (ts : List (Slot K)) (k : Nat) (p : K × Nat), (worst r ts k p).1 * alpha < nulkal ↔
      p.1 * alpha < nulkal ∨ ∃ t ∈ ts, t.used = true ∧ (r && t.rid) = false ∧ t.rap * alpha < nulkal := by
    intro ts
    induction ts with
    | nil => intro k p; simp [worst]
    | cons t ts ih =>
      intro k p
      simp only [worst]
      rw [ih]
      simp only [List.mem_cons, exists_eq_or_imp]
      by_cases hc : (t.used && !(r && t.rid) && decide (t.rap < p.1)) = true
      · rw [if_pos hc]
        simp only [Bool.and_eq_true, Bool.not_eq_true', decide_eq_true_eq] at hc
        have hm := mul_lt_mul_of_pos_right hc.2 ha
        constructor
        · rintro (x | x)
          · exact .inr (.inl ⟨hc.1.1, hc.1.2, x⟩)
          · exact .inr (.inr x)
        · rintro (x | x | x)
          · exact .inl (hm.trans x)
          · exact .inl x.2.2
          · exact .inr x
      · rw [if_neg hc]
        constructor
        · rintro (x | x)
          · exact .inl x
          · exact .inr (.inr x)
        · rintro (x | ⟨x1, x2, x3⟩ | x)
          · exact .inl x
          · left
            have : ¬ t.rap < p.1 := by
              intro hl
              apply hc
              simp only [x1, x2, hl, Bool.not_false, Bool.and_true, decide_true]
            exact lt_of_le_of_lt (mul_le_mul_of_nonneg_right (not_lt.1 this) ha.le) x3
          · exact .inr x
  unfold tetraQual minQualCheck
  simp only [Bool.not_eq_false', decide_eq_true_eq]
  rw [key]
  simp only
  rw [div_mul_cancel₀ _ ha.ne']
  exact ⟨fun x => x.resolve_left (not_lt.2 hk), .inr⟩

/-- **C68.** A mesh accepted by the test on the input is accepted by the statistics that follow. -/
theorem C68_agree {nulkal alpha : K} (ha : 0 < alpha) (hk : nulkal ≤ 2) (imprim : Int) {ts : List (Slot K)}
    (h : Range false (ts.map fun t => { t with rap := alpha * t.rap }))
    (ht : (tetraQual nulkal alpha false ts).1 = true) :
    inqua nulkal imprim (ts.map fun t => { t with rap := alpha * t.rap }) = true := by
  by_contra hc
  rw [Bool.not_eq_true, C68_verdict hk imprim h] at hc
  obtain ⟨_, t, ht', hu, hq⟩ := hc
  obtain ⟨u, hu', rfl⟩ := List.mem_map.1 ht'
  have := (C68_input ha hk false ts).2 ⟨u, hu', hu, by simp, by rw [mul_comm]; exact hq⟩
  rw [this] at ht
  simp at ht

/-! ### optimLES -/

theorem les_min (s : Stat K) (ts : List (Slot K)) : s.min ≤ (ts.foldl stepLES s).min ∧
    ∀ t ∈ ts, t.used = true → 1 - t.rap ≤ (ts.foldl stepLES s).min := by
  induction ts generalizing s with
  | nil => simp
  | cons t ts ih =>
    obtain ⟨a, b⟩ := ih (stepLES s t)
    simp only [List.foldl_cons, List.mem_cons, forall_eq_or_imp]
    have h1 : s.min ≤ (stepLES s t).min ∧ (t.used = true → 1 - t.rap ≤ (stepLES s t).min) := by
      unfold stepLES
      cases hu : t.used
      · simp
      · simp only [Bool.not_true, Bool.false_eq_true, if_false]
        split_ifs with hc
        · exact ⟨hc.le, fun _ => le_rfl⟩
        · exact ⟨le_rfl, fun _ => not_lt.1 hc⟩
    exact ⟨h1.1.trans a, fun hu => (h1.2 hu).trans a, b⟩

theorem les_min_le {s : Stat K} {ts : List (Slot K)} {b : K} (hs : s.min ≤ b)
    (h : ∀ t ∈ ts, t.used = true → 1 - t.rap ≤ b) : (ts.foldl stepLES s).min ≤ b := by
  induction ts generalizing s with
  | nil => simpa using hs
  | cons t ts ih =>
    simp only [List.foldl_cons]
    refine ih ?_ (fun u hu => h u (by simp [hu]))
    unfold stepLES
    cases hu : t.used
    · simpa using hs
    · simp only [Bool.not_true, Bool.false_eq_true, if_false]
      split_ifs
      · exact h t (by simp) hu
      · exact hs

/-- **C68.** With optimLES the verdict is reversed: with a verbosity of 1 or 2 the mesh is refused exactly
if all its tetrahedra are (almost) perfect, and a tetrahedron of quality 0 is never a reason to refuse
it. -/
theorem C68_les_verdict (nulkal : K) (imprim : Int) (h0 : 0 < nulkal) (ts : List (Slot K)) :
    quaLES nulkal imprim ts = false ↔
      (imprim = 1 ∨ imprim = 2) ∧ ∀ t ∈ ts, t.used = true → 1 - t.rap < nulkal := by
  unfold quaLES minQualCheck
  by_cases hp : imprim ≤ 0
  · rw [if_pos hp]
    exact ⟨fun x => by simp at x, fun x => absurd x.1 (by omega)⟩
  rw [if_neg hp]
  by_cases h3 : 3 ≤ imprim
  · rw [if_pos h3]
    exact ⟨fun x => by simp at x, fun x => absurd x.1 (by omega)⟩
  rw [if_neg h3, mul_one]
  simp only [Bool.not_eq_false', decide_eq_true_eq]
  constructor
  · intro hm
    exact ⟨by omega, fun t ht hu => lt_of_le_of_lt ((les_min initLES ts).2 t ht hu) hm⟩
  · rintro ⟨_, hall⟩
    -- the worst value is 0 or one of the values
    have : ∀ (ts : List (Slot K)) (s : Stat K), s.min < nulkal →
        (∀ t ∈ ts, t.used = true → 1 - t.rap < nulkal) → (ts.foldl stepLES s).min < nulkal := by
      intro ts
      induction ts with
      | nil => intro s hs _; simpa using hs
      | cons t ts ih =>
        intro s hs h
        simp only [List.foldl_cons]
        refine ih _ ?_ (fun u hu => h u (by simp [hu]))
        unfold stepLES
        cases hu : t.used
        · simpa using hs
        · simp only [Bool.not_true, Bool.false_eq_true, if_false]
          split_ifs
          · exact h t (by simp) hu
          · exact hs
    exact this ts initLES (by simpa [initLES] using h0) hall

/-! ### Concrete cases -/

def exs : List (Slot ℚ) := [⟨true, 9 / 10, false⟩, ⟨false, 7, false⟩, ⟨true, 1 / 10, true⟩, ⟨true, 1 / 2, false⟩]

example : Range false exs ∧ Range true exs := by
  constructor <;> intro t ht _ <;> simp only [exs, List.mem_cons, List.not_mem_nil, or_false] at ht <;>
    rcases ht with rfl | rfl | rfl | rfl <;> simp_all [keepOut] <;> norm_num

example : (computeIn exs).his = [1, 0, 1, 0, 1] ∧ (computeIn exs).min = 1 / 10 ∧ (computeIn exs).iel = 2 ∧
    (computeIn exs).ne exs = 3 ∧ rows (computeIn exs) = [(4, 1), (3, 0), (2, 1), (1, 0), (0, 1)] ∧
    inqua (1 / 100) 1 exs = true ∧ inqua (1 / 5) 1 exs = false ∧ inqua (1 / 5) 0 exs = true := by decide +kernel

/-- **C68 (observed).** A mesh with a tetrahedron with four ridge points: the average printed after the
remeshing is 7/15 although the two other qualities are 9/10 and 1/2; if all tetrahedra are so the
printed worst quality is 2. -/
theorem C68_ridge_observed : avgOut (computeOut true exs) exs = 7 / 15 ∧
    (computeOut true [⟨true, (1 / 10 : ℚ), true⟩]).min = 2 ∧
    (computeOut true [⟨true, (1 / 10 : ℚ), true⟩]).ne [⟨true, (1 / 10 : ℚ), true⟩] = 1 := by decide +kernel

/-- **C68 (observed).** A tetrahedron of quality 0 at the end: failure if the verbosity is positive, success
if not; with optimLES a perfect mesh fails for the verbosities 1 and 2 and one with a flat tetrahedron does
not. -/
theorem C68_verbosity_observed : outqua (1 / 100 : ℚ) 1 false [⟨true, 0, false⟩] = false ∧
    outqua (1 / 100 : ℚ) 0 false [⟨true, 0, false⟩] = true ∧
    quaLES (1 / 100 : ℚ) 1 [⟨true, 1, false⟩] = false ∧ quaLES (1 / 100 : ℚ) 3 [⟨true, 1, false⟩] = true ∧
    quaLES (1 / 100 : ℚ) 1 [⟨true, 0, false⟩] = true := by decide +kernel

end Mmg.Histo
