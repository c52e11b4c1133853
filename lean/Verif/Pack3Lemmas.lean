/- Lemmas on the loops of `Pack3Model`: the three loops over the points follow the same plan. -/
import Verif.Pack3Model
import Mathlib.Tactic.Push
import Mathlib.Data.List.Nodup

namespace Mmg.Pack3

variable {α ν K β : Type}

theorem upd_same {γ : Type} (f : Nat → γ) (k : Nat) (x : γ) : upd f k x k = x := if_pos rfl

theorem upd_ne {γ : Type} (f : Nat → γ) {k j : Nat} (x : γ) (h : j ≠ k) : upd f k x j = f j := if_neg h

/-! ### Searches -/

theorem searchDown_spec (ok : Nat → Bool) (k : Nat) : ∀ n, k ≤ n →
    k ≤ searchDown ok k n ∧ searchDown ok k n ≤ n ∧ (searchDown ok k n = k ∨ ok (searchDown ok k n) = true) ∧
    ∀ j, searchDown ok k n < j → j ≤ n → ok j = false := by
  intro n
  induction n with
  | zero => intro h; simp only [searchDown]; exact ⟨h, le_refl _, .inl (by omega), fun j h1 h2 => by omega⟩
  | succ n ih =>
    intro h
    simp only [searchDown]
    by_cases h1 : ok (n + 1) = true
    · simp only [h1, Bool.not_true, Bool.false_and, Bool.false_eq_true, if_false]
      exact ⟨h, le_refl _, .inr trivial, fun j h1 h2 => by omega⟩
    · by_cases h2 : k < n + 1
      · simp only [h1, h2, Bool.not_false, decide_true, Bool.and_true, if_true]
        obtain ⟨a, b, c, d⟩ := ih (by omega)
        refine ⟨a, by omega, c, fun j h3 h4 => ?_⟩
        rcases Nat.lt_or_ge n j with h5 | h5
        · have : j = n + 1 := by omega
          subst this; simpa using h1
        · exact d j h3 h5
      · simp only [h1, h2, decide_false, Bool.and_false, Bool.false_eq_true, if_false]
        exact ⟨h, le_refl _, .inl (by omega), fun j h1 h2 => by omega⟩

theorem search_unique {ok : Nat → Bool} {k n m1 m2 : Nat} (a1 : k ≤ m1) (a2 : k ≤ m2) (b1 : m1 ≤ n) (b2 : m2 ≤ n)
    (c1 : m1 = k ∨ ok m1 = true) (c2 : m2 = k ∨ ok m2 = true) (d1 : ∀ j, m1 < j → j ≤ n → ok j = false)
    (d2 : ∀ j, m2 < j → j ≤ n → ok j = false) : m1 = m2 := by
  rcases Nat.lt_trichotomy m1 m2 with h | h | h
  · rcases c2 with c2 | c2
    · omega
    · rw [d1 m2 h b2] at c2; simp at c2
  · exact h
  · rcases c1 with c1 | c1
    · omega
    · rw [d2 m1 h b1] at c1; simp at c1

theorem lastUsed_spec (ok : Nat → Bool) : ∀ n, lastUsed ok n ≤ n ∧ (lastUsed ok n = 0 ∨ ok (lastUsed ok n) = true) ∧
    ∀ j, lastUsed ok n < j → j ≤ n → ok j = false := by
  intro n
  induction n with
  | zero => exact ⟨le_refl _, .inl rfl, fun j h1 h2 => by omega⟩
  | succ n ih =>
    simp only [lastUsed]
    by_cases h1 : ok (n + 1) = true
    · rw [if_pos h1]; exact ⟨le_refl _, .inr h1, fun j h1 h2 => by omega⟩
    · rw [if_neg h1]
      obtain ⟨a, b, c⟩ := ih
      refine ⟨by omega, b, fun j h3 h4 => ?_⟩
      rcases Nat.lt_or_ge n j with h5 | h5
      · have : j = n + 1 := by omega
        subst this; simpa using h1
      · exact c j h3 h5

/-! ### The plan -/

/-- The moves of the packing, from index `k`, of the indices below `n`: (new index, old index). -/
def plan (ok : Nat → Bool) : Nat → Nat → Nat → List (Nat × Nat)
  | 0, _, _ => []
  | f + 1, k, n =>
    if n ≤ k then []
    else if ok k then (k, k) :: plan ok f (k + 1) n
    else if searchDown ok k (n - 1) = k then []
    else (k, searchDown ok k (n - 1)) :: plan ok f (k + 1) (searchDown ok k (n - 1))

theorem plan_stop (ok : Nat → Bool) (f k n : Nat) (h : ∀ j, k ≤ j → j < n → ok j = false) : plan ok f k n = [] := by
  cases f with
  | zero => rfl
  | succ f =>
    simp only [plan]
    by_cases h1 : n ≤ k
    · rw [if_pos h1]
    · rw [if_neg h1, if_neg (by rw [h k (le_refl _) (by omega)]; simp), if_pos]
      obtain ⟨a, b, c, _⟩ := searchDown_spec ok k (n - 1) (by omega)
      rcases c with c | c
      · exact c
      · rw [h _ a (by omega)] at c; simp at c

theorem plan_trim (ok : Nat → Bool) : ∀ (f f' k n n' : Nat), n - k ≤ f → n' - k ≤ f' → n' ≤ n →
    (∀ j, n' ≤ j → j < n → ok j = false) → plan ok f k n = plan ok f' k n' := by
  intro f
  induction f with
  | zero =>
    intro f' k n n' h1 h2 h3 h4
    rw [plan_stop ok 0 k n (fun j a b => by omega), plan_stop ok f' k n' (fun j a b => by omega)]
  | succ f ih =>
    intro f' k n n' h1 h2 h3 h4
    by_cases hk : n' ≤ k
    · rw [plan_stop ok f' k n' (fun j a b => by omega), plan_stop ok _ k n (fun j a b => h4 j (by omega) b)]
    · obtain ⟨f', rfl⟩ : ∃ g, f' = g + 1 := ⟨f' - 1, by omega⟩
      simp only [plan]
      rw [if_neg (by omega), if_neg hk]
      by_cases ho : ok k = true
      · rw [if_pos ho, if_pos ho, ih f' (k + 1) n n' (by omega) (by omega) h3 h4]
      · rw [if_neg ho, if_neg ho]
        have he : searchDown ok k (n - 1) = searchDown ok k (n' - 1) := by
          obtain ⟨a, b, c, d⟩ := searchDown_spec ok k (n - 1) (by omega)
          obtain ⟨a', b', c', d'⟩ := searchDown_spec ok k (n' - 1) (by omega)
          refine search_unique a a' b (by omega) c c' d (fun j h5 h6 => ?_)
          rcases Nat.lt_or_ge j n' with h7 | h7
          · exact d' j h5 (by omega)
          · exact h4 j h7 (by omega)
        rw [he]
        by_cases hm : searchDown ok k (n' - 1) = k
        · rw [if_pos hm, if_pos hm]
        · rw [if_neg hm, if_neg hm]
          obtain ⟨a', b', c', d'⟩ := searchDown_spec ok k (n' - 1) (by omega)
          rw [ih f' (k + 1) _ _ (by omega) (by omega) (le_refl _) (fun j a b => by omega)]

/-- What the plan is: the new indices follow one another from `k`, the old indices are the used ones, each once, and a
used index inside the new range keeps its place. -/
theorem plan_spec (ok : Nat → Bool) : ∀ (f k n : Nat), n - k ≤ f →
    (plan ok f k n).map Prod.fst = List.range' k (plan ok f k n).length ∧
    (∀ s, s ∈ (plan ok f k n).map Prod.snd ↔ k ≤ s ∧ s < n ∧ ok s = true) ∧
    ((plan ok f k n).map Prod.snd).Nodup ∧
    (∀ p ∈ plan ok f k n, ok p.2 = true ∧ k ≤ p.1 ∧ (p.1 = p.2 ∨ ok p.1 = false ∧ p.1 < p.2)) := by
  intro f
  induction f with
  | zero =>
    intro k n h
    refine ⟨rfl, fun s => ?_, by simp [plan], fun p hp => by simp [plan] at hp⟩
    simp only [plan, List.map_nil, List.not_mem_nil, false_iff]; omega
  | succ f ih =>
    intro k n h
    simp only [plan]
    by_cases h1 : n ≤ k
    · rw [if_pos h1]
      refine ⟨rfl, fun s => ?_, by simp, fun p hp => by simp at hp⟩
      simp only [List.map_nil, List.not_mem_nil, false_iff]; omega
    · rw [if_neg h1]
      by_cases ho : ok k = true
      · rw [if_pos ho]
        obtain ⟨a, b, c, d⟩ := ih (k + 1) n (by omega)
        refine ⟨?_, fun s => ?_, ?_, ?_⟩
        · simp only [List.map_cons, List.length_cons, a, List.range'_succ]
        · simp only [List.map_cons, List.mem_cons, b]
          constructor
          · rintro (rfl | ⟨x, y, z⟩)
            · exact ⟨le_refl _, by omega, ho⟩
            · exact ⟨by omega, y, z⟩
          · rintro ⟨x, y, z⟩
            by_cases hs : s = k
            · exact .inl hs
            · exact .inr ⟨by omega, y, z⟩
        · simp only [List.map_cons, List.nodup_cons]
          refine ⟨fun hc => ?_, c⟩
          have := (b k).1 hc; omega
        · intro p hp
          rcases List.mem_cons.1 hp with rfl | hp
          · exact ⟨ho, le_refl _, .inl rfl⟩
          · obtain ⟨x, y, z⟩ := d p hp
            exact ⟨x, by omega, z⟩
      · rw [if_neg ho]
        have hf : ok k = false := by simpa using ho
        obtain ⟨sa, sb, sc, sd⟩ := searchDown_spec ok k (n - 1) (by omega)
        by_cases hm : searchDown ok k (n - 1) = k
        · rw [if_pos hm]
          refine ⟨rfl, fun s => ?_, by simp, fun p hp => by simp at hp⟩
          simp only [List.map_nil, List.not_mem_nil, false_iff]
          rintro ⟨x, y, z⟩
          by_cases hs : s = k
          · rw [hs, hf] at z; simp at z
          · rw [sd s (by omega) (by omega)] at z; simp at z
        · rw [if_neg hm]
          generalize searchDown ok k (n - 1) = m at *
          have hok : ok m = true := by rcases sc with sc | sc; exact absurd sc hm; exact sc
          obtain ⟨a, b, c, d⟩ := ih (k + 1) m (by omega)
          refine ⟨?_, fun s => ?_, ?_, ?_⟩
          · simp only [List.map_cons, List.length_cons, a, List.range'_succ]
          · simp only [List.map_cons, List.mem_cons, b]
            constructor
            · rintro (rfl | ⟨x, y, z⟩)
              · exact ⟨sa, by omega, hok⟩
              · exact ⟨by omega, by omega, z⟩
            · rintro ⟨x, y, z⟩
              by_cases hs : s = m
              · exact .inl hs
              · right
                refine ⟨?_, ?_, z⟩
                · rcases Nat.lt_or_ge k s with h5 | h5
                  · omega
                  · have : s = k := by omega
                    rw [this, hf] at z; simp at z
                · by_contra h6
                  rw [sd s (by omega) (by omega)] at z; simp at z
          · simp only [List.map_cons, List.nodup_cons]
            refine ⟨fun hc => ?_, c⟩
            have := (b m).1 hc; omega
          · intro p hp
            rcases List.mem_cons.1 hp with rfl | hp
            · exact ⟨hok, le_refl _, .inr ⟨hf, by dsimp only; omega⟩⟩
            · obtain ⟨x, y, z⟩ := d p hp
              exact ⟨x, by omega, z⟩

theorem plan_mem_fst {ok : Nat → Bool} {f k n : Nat} (h : n - k ≤ f) {p : Nat × Nat} (hp : p ∈ plan ok f k n) :
    p.1 < k + (plan ok f k n).length := by
  have h1 := (plan_spec ok f k n h).1
  have : p.1 ∈ List.range' k (plan ok f k n).length := by rw [← h1]; exact List.mem_map_of_mem hp
  rw [List.mem_range'_1] at this; exact this.2

/-- The head and the tail of the plan when there is something to do. -/
theorem plan_ok {ok : Nat → Bool} {f k n : Nat} (h : n - k ≤ f + 1) (hk : k < n) (ho : ok k = true) :
    plan ok (f + 1) k n = (k, k) :: plan ok f (k + 1) n := by
  simp only [plan]; rw [if_neg (by omega), if_pos ho]

theorem plan_hole {ok : Nat → Bool} {f k n : Nat} (hk : k < n) (ho : ok k = false)
    (hm : searchDown ok k (n - 1) ≠ k) :
    plan ok (f + 1) k n = (k, searchDown ok k (n - 1)) :: plan ok f (k + 1) (searchDown ok k (n - 1)) := by
  simp only [plan]; rw [if_neg (by omega), if_neg (by rw [ho]; simp), if_neg hm]

/-! ### Marking -/

theorem and_le (x y : BitVec 16) : (x &&& y).toNat ≤ x.toNat := by
  rw [BitVec.toNat_and]; exact Nat.and_le_left

theorem vok_clean (p : Pt α ν) : vok (clean p) = vok p := by
  unfold vok clean
  dsimp only
  by_cases h : has p.tag NOSURF = true
  · rw [if_pos h]
    have key : (p.tag &&& ~~~NOSURF &&& ~~~REQ).toNat < 32768 ↔ p.tag.toNat < 32768 := by
      constructor
      · intro h1
        by_contra h2
        have e : (p.tag &&& ~~~NOSURF &&& ~~~REQ).msb = p.tag.msb := by
          have a : (~~~NOSURF).msb = true := by decide
          have b : (~~~REQ).msb = true := by decide
          rw [BitVec.msb_and, BitVec.msb_and, a, b, Bool.and_true, Bool.and_true]
        rw [BitVec.msb_eq_decide, BitVec.msb_eq_decide] at e
        simp only [decide_eq_decide] at e
        omega
      · intro h1
        exact lt_of_le_of_lt ((and_le _ _).trans (and_le _ _)) h1
    exact decide_eq_decide.2 key
  · rw [if_neg h]

theorem vok_stamp (d : Nat) (p : Pt α ν) : vok (stamp d p) = vok p := vok_clean _

def markOne (x : Nat × (Nat → Pt α ν)) (p : Nat × Nat) : Nat × (Nat → Pt α ν) :=
  (if has (stamp p.1 (x.2 p.2)).tag CRN then x.1 + 1 else x.1, upd x.2 p.2 (stamp p.1 (x.2 p.2)))

theorem markLoop_plan (ok : Nat → Bool) : ∀ (f k n nc : Nat) (pt : Nat → Pt α ν), k < n → n - k ≤ f →
    (∀ j, vok (pt j) = ok j) →
    markLoop f k n nc pt = (k + (plan ok f k n).length, (plan ok f k n).foldl markOne (nc, pt)) := by
  intro f
  induction f with
  | zero => intro k n nc pt h1 h2; omega
  | succ f ih =>
    intro k n nc pt h1 h2 hok
    have hfun : (fun j => vok (pt j)) = ok := funext hok
    have hstep : ∀ m, ∀ j, vok (upd pt m (stamp k (pt m)) j) = ok j := by
      intro m j
      unfold upd
      split_ifs with hj
      · rw [vok_stamp, hj]; exact hok m
      · exact hok j
    simp only [markLoop]
    rw [hfun, hok k]
    by_cases ho : ok k = true
    · rw [plan_ok h2 h1 ho]
      simp only [ho, if_true]
      rw [if_neg (by omega)]
      by_cases h3 : k + 1 < n
      · rw [if_pos h3]
        have := ih (k + 1) n (if has (stamp k (pt k)).tag CRN = true then nc + 1 else nc)
          (upd pt k (stamp k (pt k))) h3 (by omega) (hstep k)
        rw [this]
        simp only [List.length_cons, List.foldl_cons, markOne]
        rw [show k + 1 + (plan ok f (k + 1) n).length = k + ((plan ok f (k + 1) n).length + 1) by omega]
      · rw [if_neg h3, plan_stop ok f (k + 1) n (fun j a b => by omega)]
        simp only [List.length_cons, List.length_nil, List.foldl_cons, List.foldl_nil, markOne]
        rw [show n = k + (0 + 1) by omega]
    · have hf : ok k = false := by simpa using ho
      simp only [hf, Bool.false_eq_true, if_false]
      obtain ⟨sa, sb, sc, sd⟩ := searchDown_spec ok k (n - 1) (by omega)
      by_cases hm : searchDown ok k (n - 1) = k
      · rw [if_pos hm.symm, hm, plan_stop ok (f + 1) k n]
        · simp
        · intro j a b
          by_cases hj : j = k
          · rw [hj]; exact hf
          · exact sd j (by omega) (by omega)
      · rw [plan_hole h1 hf hm, if_neg (Ne.symm hm)]
        generalize searchDown ok k (n - 1) = m at *
        by_cases h3 : k + 1 < m
        · rw [if_pos h3]
          have := ih (k + 1) m (if has (stamp k (pt m)).tag CRN = true then nc + 1 else nc)
            (upd pt m (stamp k (pt m))) h3 (by omega) (hstep m)
          rw [this]
          simp only [List.length_cons, List.foldl_cons, markOne]
          rw [show k + 1 + (plan ok f (k + 1) m).length = k + ((plan ok f (k + 1) m).length + 1) by omega]
        · rw [if_neg h3, plan_stop ok f (k + 1) m (fun j a b => by omega)]
          simp only [List.length_cons, List.length_nil, List.foldl_cons, List.foldl_nil, markOne]
          rw [show m = k + (0 + 1) by omega]

theorem foldl_markOne (L : List (Nat × Nat)) : ∀ (x : Nat × (Nat → Pt α ν)), (L.map Prod.snd).Nodup →
    (L.foldl markOne x).1 = x.1 + L.countP (fun p => has (stamp p.1 (x.2 p.2)).tag CRN) ∧
    (∀ p ∈ L, (L.foldl markOne x).2 p.2 = stamp p.1 (x.2 p.2)) ∧
    (∀ j, j ∉ L.map Prod.snd → (L.foldl markOne x).2 j = x.2 j) := by
  induction L with
  | nil => intro x _; exact ⟨rfl, fun p hp => by simp at hp, fun j _ => rfl⟩
  | cons a L ih =>
    intro x hn
    simp only [List.map_cons, List.nodup_cons] at hn
    rw [List.foldl_cons]
    obtain ⟨i1, i2, i3⟩ := ih (markOne x a) hn.2
    have hsame : ∀ p ∈ L, (markOne x a).2 p.2 = x.2 p.2 := by
      intro p hp
      refine upd_ne _ _ (fun h => hn.1 ?_)
      rw [← h]; exact List.mem_map_of_mem hp
    refine ⟨?_, ?_, ?_⟩
    · rw [i1, List.countP_cons]
      have : L.countP (fun p => has (stamp p.1 ((markOne x a).2 p.2)).tag CRN) =
          L.countP (fun p => has (stamp p.1 (x.2 p.2)).tag CRN) := by
        apply List.countP_congr
        intro p hp
        rw [hsame p hp]
      rw [this]
      simp only [markOne]
      split_ifs <;> omega
    · intro p hp
      rcases List.mem_cons.1 hp with rfl | hp
      · rw [i3 _ hn.1]; exact upd_same _ _ _
      · rw [i2 p hp, hsame p hp]
    · intro j hj
      simp only [List.map_cons, List.mem_cons, not_or] at hj
      rw [i3 j hj.2]
      exact upd_ne _ _ hj.1

/-! ### Solutions -/

theorem copyBlock_spec (size d s : Nat) (h : d ≠ s) (m : Nat → K) : ∀ q i, i < size →
    copyBlock size d s m (q * size + i) = if q = d then m (s * size + i) else m (q * size + i) := by
  have key : ∀ n, n ≤ size → ∀ q i, i < size →
      ((List.range n).foldl (fun m i => upd m (d * size + i) (m (s * size + i))) m) (q * size + i) =
        if q = d ∧ i < n then m (s * size + i) else m (q * size + i) := by
    intro n
    induction n with
    | zero => intro _ q i _; simp
    | succ n ih =>
      intro hn q i hi
      rw [List.range_succ, List.foldl_append, List.foldl_cons, List.foldl_nil]
      have e1 := ih (by omega) s n (by omega)
      rw [if_neg (by omega)] at e1
      rw [e1]
      by_cases hq : q * size + i = d * size + n
      · have hqd : q = d ∧ i = n := by
          have h1 : (q * size + i) / size = q := by
            rw [Nat.mul_comm, Nat.mul_add_div (by omega), Nat.div_eq_of_lt hi, Nat.add_zero]
          have h2 : (d * size + n) / size = d := by
            rw [Nat.mul_comm, Nat.mul_add_div (by omega), Nat.div_eq_of_lt (by omega), Nat.add_zero]
          rw [hq, h2] at h1
          subst h1; exact ⟨rfl, by omega⟩
        rw [hq, upd_same, if_pos ⟨hqd.1, by omega⟩, hqd.2]
      · rw [upd_ne _ _ hq, ih (by omega) q i hi]
        by_cases hq2 : q = d ∧ i < n
        · rw [if_pos hq2, if_pos ⟨hq2.1, by omega⟩]
        · rw [if_neg hq2, if_neg]
          rintro ⟨rfl, h3⟩
          exact hq2 ⟨rfl, by
            rcases Nat.lt_or_ge i n with h4 | h4
            · exact h4
            · exact absurd (by rw [show i = n by omega]) hq⟩
  intro q i hi
  rw [copyBlock, key size (le_refl _) q i hi]
  by_cases hq : q = d
  · rw [if_pos ⟨hq, hi⟩, if_pos hq]
  · rw [if_neg (fun h => hq h.1), if_neg hq]

def copyOne (size : Nat) (m : Nat → K) (p : Nat × Nat) : Nat → K :=
  if p.1 = p.2 then m else copyBlock size p.1 p.2 m

theorem plan_single (ok : Nat → Bool) (f k : Nat) (h : 1 ≤ f) (ho : ok k = true) : plan ok f k (k + 1) = [(k, k)] := by
  obtain ⟨f, rfl⟩ : ∃ g, f = g + 1 := ⟨f - 1, by omega⟩
  rw [plan_ok (by omega) (by omega) ho, plan_stop ok f (k + 1) (k + 1) (fun j a b => by omega)]

theorem solLoop_plan (ok : Nat → Bool) (size : Nat) : ∀ (f k n : Nat) (m : Nat → K), k ≤ n → n + 1 - k ≤ f →
    ok n = true →
    solLoop ok size f k n m = (k + (plan ok f k (n + 1)).length - 1, (plan ok f k (n + 1)).foldl (copyOne size) m) := by
  intro f
  induction f with
  | zero => intro k n m h1 h2; omega
  | succ f ih =>
    intro k n m h1 h2 hn
    simp only [solLoop]
    by_cases ho : ok k = true
    · simp only [ho, if_true]
      rw [plan_ok h2 (by omega) ho]
      by_cases h3 : k + 1 < n
      · rw [if_pos h3, ih (k + 1) n m (by omega) (by omega) hn]
        simp only [List.length_cons, List.foldl_cons, copyOne, if_true]
        rw [show k + 1 + (plan ok f (k + 1) (n + 1)).length - 1 = k + ((plan ok f (k + 1) (n + 1)).length + 1) - 1 by
          omega]
      · rw [if_neg h3]
        by_cases h4 : k = n
        · rw [plan_stop ok f (k + 1) (n + 1) (fun j a b => by omega)]
          simp [copyOne, h4]
        · have : n = k + 1 := by omega
          subst this
          rw [plan_single ok f (k + 1) (by omega) hn]
          simp [copyOne]
    · have hf : ok k = false := by simpa using ho
      have hkn : k < n := by
        rcases Nat.lt_or_ge k n with h | h
        · exact h
        · have : k = n := by omega
          rw [this, hn] at hf; simp at hf
      simp only [hf, Bool.false_eq_true, if_false]
      have hs : searchDown ok k (n + 1 - 1) = n := by
        obtain ⟨sa, sb, sc, sd⟩ := searchDown_spec ok k (n + 1 - 1) (by omega)
        by_contra hc
        rw [sd n (by omega) (by omega)] at hn; simp at hn
      rw [plan_hole (by omega) hf (by rw [hs]; omega), hs]
      obtain ⟨sa, sb, sc, sd⟩ := searchDown_spec ok k (n - 1) (by omega)
      generalize searchDown ok k (n - 1) = r at *
      have htrim : ∀ g, r + 1 - (k + 1) ≤ g → plan ok f (k + 1) n = plan ok g (k + 1) (r + 1) := fun g hg =>
        plan_trim ok f g (k + 1) n (r + 1) (by omega) hg (by omega) (fun j a b => sd j (by omega) (by omega))
      have hc : copyBlock size k n m = copyOne size m (k, n) := by
        simp only [copyOne]; rw [if_neg (by omega)]
      by_cases h3 : k + 1 < r
      · rw [if_pos h3, ih (k + 1) r _ (by omega) (by omega) (by rcases sc with sc | sc; omega; exact sc),
          htrim f (by omega)]
        simp only [List.length_cons, List.foldl_cons, hc]
        rw [show k + 1 + (plan ok f (k + 1) (r + 1)).length - 1 = k + ((plan ok f (k + 1) (r + 1)).length + 1) - 1 by
          omega]
      · rw [if_neg h3]
        by_cases h4 : r = k
        · rw [plan_stop ok f (k + 1) n (fun j a b => sd j (by omega) (by omega))]
          rw [h4, hc]; rfl
        · have : r = k + 1 := by omega
          subst this
          rw [htrim f (by omega), plan_single ok f (k + 1) (by omega) (by rcases sc with sc | sc; omega; exact sc)]
          rw [hc]; exact Prod.ext rfl (if_pos rfl).symm

theorem foldl_copyOne (size : Nat) (ok : Nat → Bool) (L : List (Nat × Nat)) : ∀ (m : Nat → K),
    (L.map Prod.fst).Nodup → (∀ p ∈ L, ok p.2 = true ∧ (p.1 = p.2 ∨ ok p.1 = false ∧ p.1 < p.2)) →
    (∀ p ∈ L, ∀ i < size, (L.foldl (copyOne size) m) (p.1 * size + i) = m (p.2 * size + i)) ∧
    (∀ q, q ∉ L.map Prod.fst → ∀ i < size, (L.foldl (copyOne size) m) (q * size + i) = m (q * size + i)) := by
  induction L with
  | nil => intro m _ _; exact ⟨fun p hp => by simp at hp, fun q _ i _ => rfl⟩
  | cons a L ih =>
    intro m hn hL
    simp only [List.map_cons, List.nodup_cons] at hn
    rw [List.foldl_cons]
    obtain ⟨i1, i2⟩ := ih (copyOne size m a) hn.2 (fun p hp => hL p (List.mem_cons_of_mem _ hp))
    have ha := hL a List.mem_cons_self
    have hone : ∀ q i, i < size → copyOne size m a (q * size + i) = if q = a.1 then m (a.2 * size + i)
        else m (q * size + i) := by
      intro q i hi
      unfold copyOne
      by_cases h : a.1 = a.2
      · rw [if_pos h]
        split_ifs with hq
        · rw [hq, h]
        · rfl
      · rw [if_neg h, copyBlock_spec size a.1 a.2 h m q i hi]
    refine ⟨?_, ?_⟩
    · intro p hp i hi
      rcases List.mem_cons.1 hp with rfl | hp
      · rw [i2 _ hn.1 i hi, hone _ i hi, if_pos rfl]
      · rw [i1 p hp i hi, hone _ i hi]
        split_ifs with hq
        · have hp2 := hL p (List.mem_cons_of_mem _ hp)
          rcases ha.2 with h | h
          · rw [hq, h]
          · rw [hq, h.1] at hp2; simp at hp2
        · rfl
    · intro q hq i hi
      simp only [List.map_cons, List.mem_cons, not_or] at hq
      rw [i2 q hq.2 i hi, hone q i hi, if_neg hq.1]

/-! ### Points -/

theorem vok_setNormal (xn : Nat → ν) (p : Pt α ν) : vok (setNormal xn p) = vok p := by
  unfold setNormal; split_ifs <;> rfl

theorem vok_nul (z : Pt α ν) (l : Nat) : vok (nulPt z l) = false := by
  unfold vok nulPt; rfl

theorem ptLoop_plan (z : Pt α ν) (xn : Nat → ν) (ok : Nat → Bool) : ∀ (f k n : Nat) (pt : Nat → Pt α ν), 1 ≤ k →
    k ≤ n → n + 1 - k ≤ f → ok n = true → (∀ j, k ≤ j → j ≤ n → vok (pt j) = ok j) →
    (ptLoop z xn f k n pt).1 = k + (plan ok f k (n + 1)).length - 1 ∧
    (∀ p ∈ plan ok f k (n + 1), (ptLoop z xn f k n pt).2 p.1 =
      if p.1 = k + (plan ok f k (n + 1)).length - 1 ∧ p.1 = p.2 ∧ k < n then pt p.2 else setNormal xn (pt p.2)) ∧
    (∀ j, j < k → (ptLoop z xn f k n pt).2 j = pt j) ∧
    (∀ j, n < j → (ptLoop z xn f k n pt).2 j = pt j) ∧
    (∀ j, k + (plan ok f k (n + 1)).length ≤ j → j ≤ n → vok ((ptLoop z xn f k n pt).2 j) = false) := by
  intro f
  induction f with
  | zero => intro k n pt _ h1 h2; omega
  | succ f ih =>
    intro k n pt hk1 h1 h2 hn hok
    simp only [ptLoop]
    by_cases ho : ok k = true
    · have hv : vok (pt k) = true := by rw [hok k (le_refl _) h1]; exact ho
      simp only [hv, if_true]
      rw [plan_ok h2 (by omega) ho]
      by_cases h3 : k + 1 < n
      · rw [if_pos h3]
        obtain ⟨i1, i2, i3, i4, i5⟩ := ih (k + 1) n (upd pt k (setNormal xn (pt k))) (by omega) (by omega) (by omega) hn
          (fun j a b => by rw [upd_ne _ _ (by omega)]; exact hok j (by omega) b)
        simp only [List.length_cons]
        rw [show k + 1 + (plan ok f (k + 1) (n + 1)).length - 1 = k + ((plan ok f (k + 1) (n + 1)).length + 1) - 1 by
          omega] at i1 i2
        rw [show k + 1 + (plan ok f (k + 1) (n + 1)).length = k + ((plan ok f (k + 1) (n + 1)).length + 1) by
          omega] at i5
        have hsp := plan_spec ok f (k + 1) (n + 1) (by omega)
        have hlen : 1 ≤ (plan ok f (k + 1) (n + 1)).length := by
          have : n ∈ (plan ok f (k + 1) (n + 1)).map Prod.snd := (hsp.2.1 n).2 ⟨by omega, by omega, hn⟩
          have := List.length_pos_of_mem this
          rwa [List.length_map] at this
        refine ⟨i1, ?_, ?_, ?_, i5⟩
        · intro p hp
          rcases List.mem_cons.1 hp with rfl | hp
          · dsimp only
            rw [i3 k (by omega), upd_same, if_neg (by omega)]
          · rw [i2 p hp]
            have hp2 : k + 1 ≤ p.2 := by
              have := (hsp.2.1 p.2).1 (List.mem_map_of_mem hp); omega
            rw [upd_ne _ _ (by omega)]
            by_cases hc : p.1 = k + ((plan ok f (k + 1) (n + 1)).length + 1) - 1 ∧ p.1 = p.2
            · rw [if_pos ⟨hc.1, hc.2, h3⟩, if_pos ⟨hc.1, hc.2, by omega⟩]
            · rw [if_neg (fun h => hc ⟨h.1, h.2.1⟩), if_neg (fun h => hc ⟨h.1, h.2.1⟩)]
        · intro j hj
          rw [i3 j (by omega), upd_ne _ _ (by omega)]
        · intro j hj
          rw [i4 j hj, upd_ne _ _ (by omega)]
      · rw [if_neg h3]
        by_cases h4 : k = n
        · subst h4
          rw [plan_stop ok f (k + 1) (k + 1) (fun j a b => by omega)]
          simp only [List.length_cons, List.length_nil, List.mem_singleton]
          refine ⟨by omega, ?_, fun j hj => upd_ne _ _ (by omega), fun j hj => upd_ne _ _ (by omega),
            fun j a b => by omega⟩
          rintro p rfl
          dsimp only
          rw [upd_same, if_neg (by omega)]
        · have : n = k + 1 := by omega
          subst this
          rw [plan_single ok f (k + 1) (by omega) hn]
          simp only [List.length_cons, List.length_nil]
          refine ⟨by omega, ?_, fun j hj => upd_ne _ _ (by omega), fun j hj => upd_ne _ _ (by omega),
            fun j a b => by omega⟩
          intro p hp
          simp only [List.mem_cons, List.not_mem_nil, or_false] at hp
          rcases hp with rfl | rfl
          · dsimp only
            rw [upd_same, if_neg (by omega)]
          · dsimp only
            rw [upd_ne _ _ (by omega), if_pos ⟨by omega, rfl, by omega⟩]
    · have hf : ok k = false := by simpa using ho
      have hv : vok (pt k) = false := by rw [hok k (le_refl _) h1]; exact hf
      have hkn : k < n := by
        rcases Nat.lt_or_ge k n with h | h
        · exact h
        · have : k = n := by omega
          rw [this, hn] at hf; simp at hf
      simp only [hv, Bool.false_eq_true, if_false]
      have hs : searchDown ok k (n + 1 - 1) = n := by
        obtain ⟨sa, sb, sc, sd⟩ := searchDown_spec ok k (n + 1 - 1) (by omega)
        by_contra hc
        rw [sd n (by omega) (by omega)] at hn; simp at hn
      rw [plan_hole (by omega) hf (by rw [hs]; omega), hs]
      have hr : lastUsed (fun j => vok (upd (upd pt k (pt n)) n (nulPt z 0) j)) n = searchDown ok k (n - 1) := by
        obtain ⟨sa, sb, sc, sd⟩ := searchDown_spec ok k (n - 1) (by omega)
        obtain ⟨la, lb, lc⟩ := lastUsed_spec (fun j => vok (upd (upd pt k (pt n)) n (nulPt z 0) j)) n
        have vk : vok (upd (upd pt k (pt n)) n (nulPt z 0) k) = true := by
          rw [upd_ne _ _ (by omega), upd_same, hok n (by omega) (le_refl _)]; exact hn
        have vn : vok (upd (upd pt k (pt n)) n (nulPt z 0) n) = false := by rw [upd_same]; exact vok_nul _ _
        have vj : ∀ j, k < j → j < n → vok (upd (upd pt k (pt n)) n (nulPt z 0) j) = ok j := by
          intro j a b
          rw [upd_ne _ _ (by omega), upd_ne _ _ (by omega)]; exact hok j (by omega) (by omega)
        generalize hl : lastUsed (fun j => vok (upd (upd pt k (pt n)) n (nulPt z 0) j)) n = l at *
        have hkl : k ≤ l := by
          by_contra hc
          rw [lc k (by omega) (by omega)] at vk; simp at vk
        have hln : l ≠ n := by
          intro h
          rcases lb with lb | lb
          · omega
          · rw [h, vn] at lb; simp at lb
        refine search_unique (n := n - 1) hkl sa (by omega) sb ?_ sc (fun j a b => ?_) sd
        · by_cases h : l = k
          · exact .inl h
          · right
            rcases lb with lb | lb
            · omega
            · rwa [vj l (by omega) (by omega)] at lb
        · have := lc j a (by omega)
          rwa [vj j (by omega) (by omega)] at this
      rw [hr]
      obtain ⟨sa, sb, sc, sd⟩ := searchDown_spec ok k (n - 1) (by omega)
      generalize searchDown ok k (n - 1) = r at *
      have htrim : ∀ g, r + 1 - (k + 1) ≤ g → plan ok f (k + 1) n = plan ok g (k + 1) (r + 1) := fun g hg =>
        plan_trim ok f g (k + 1) n (r + 1) (by omega) hg (by omega) (fun j a b => sd j (by omega) (by omega))
      have e1 : upd (upd pt k (pt n)) n (nulPt z 0) k = pt n := by
        rw [upd_ne _ _ (by omega), upd_same]
      rw [e1]
      have ek : ∀ j, j ≠ k → j ≠ n → upd (upd (upd pt k (pt n)) n (nulPt z 0)) k (setNormal xn (pt n)) j = pt j := by
        intro j a b
        rw [upd_ne _ _ a, upd_ne _ _ b, upd_ne _ _ a]
      have ekn : vok (upd (upd (upd pt k (pt n)) n (nulPt z 0)) k (setNormal xn (pt n)) n) = false := by
        rw [upd_ne _ _ (by omega), upd_same]; exact vok_nul _ _
      by_cases h3 : k + 1 < r
      · rw [if_pos h3, htrim f (by omega)]
        have hrok : ok r = true := by rcases sc with sc | sc; omega; exact sc
        obtain ⟨i1, i2, i3, i4, i5⟩ := ih (k + 1) r (upd (upd (upd pt k (pt n)) n (nulPt z 0)) k (setNormal xn (pt n)))
          (by omega) (by omega) (by omega) hrok
          (fun j a b => by rw [ek j (by omega) (by omega)]; exact hok j (by omega) (by omega))
        simp only [List.length_cons]
        rw [show k + 1 + (plan ok f (k + 1) (r + 1)).length - 1 = k + ((plan ok f (k + 1) (r + 1)).length + 1) - 1 by
          omega] at i1 i2
        rw [show k + 1 + (plan ok f (k + 1) (r + 1)).length = k + ((plan ok f (k + 1) (r + 1)).length + 1) by
          omega] at i5
        have hsp := plan_spec ok f (k + 1) (r + 1) (by omega)
        refine ⟨i1, ?_, ?_, ?_, ?_⟩
        · intro p hp
          rcases List.mem_cons.1 hp with rfl | hp
          · dsimp only
            rw [i3 k (by omega), upd_same, if_neg (by omega)]
          · rw [i2 p hp]
            have hp2 := (hsp.2.1 p.2).1 (List.mem_map_of_mem hp)
            rw [ek p.2 (by omega) (by omega)]
            by_cases hc : p.1 = k + ((plan ok f (k + 1) (r + 1)).length + 1) - 1 ∧ p.1 = p.2
            · rw [if_pos ⟨hc.1, hc.2, h3⟩, if_pos ⟨hc.1, hc.2, by omega⟩]
            · rw [if_neg (fun h => hc ⟨h.1, h.2.1⟩), if_neg (fun h => hc ⟨h.1, h.2.1⟩)]
        · intro j hj
          rw [i3 j (by omega), ek j (by omega) (by omega)]
        · intro j hj
          rw [i4 j (by omega), ek j (by omega) (by omega)]
        · intro j a b
          rcases Nat.lt_or_ge r j with h5 | h5
          · rw [i4 j h5]
            by_cases hj : j = n
            · rw [hj]; exact ekn
            · rw [ek j (by omega) hj, hok j (by omega) b]; exact sd j h5 (by omega)
          · exact i5 j a h5
      · rw [if_neg h3]
        by_cases h4 : r = k
        · rw [plan_stop ok f (k + 1) n (fun j a b => sd j (by omega) (by omega))]
          simp only [List.length_cons, List.length_nil, List.mem_singleton]
          refine ⟨by omega, ?_, fun j hj => ek j (by omega) (by omega), fun j hj => ek j (by omega) (by omega), ?_⟩
          · rintro p rfl
            dsimp only
            rw [upd_same, if_neg (by omega)]
          · intro j a b
            by_cases hj : j = n
            · rw [hj]; exact ekn
            · rw [ek j (by omega) hj, hok j (by omega) b]; exact sd j (by omega) (by omega)
        · have hr1 : r = k + 1 := by omega
          subst hr1
          rw [htrim f (by omega), plan_single ok f (k + 1) (by omega) (by rcases sc with sc | sc; omega; exact sc)]
          simp only [List.length_cons, List.length_nil]
          refine ⟨by omega, ?_, fun j hj => ek j (by omega) (by omega), fun j hj => ek j (by omega) (by omega), ?_⟩
          · intro p hp
            simp only [List.mem_cons, List.not_mem_nil, or_false] at hp
            rcases hp with rfl | rfl
            · dsimp only
              rw [upd_same, if_neg (by omega)]
            · dsimp only
              rw [ek (k + 1) (by omega) (by omega), if_pos ⟨by omega, rfl, by omega⟩]
          · intro j a b
            by_cases hj : j = n
            · rw [hj]; exact ekn
            · rw [ek j (by omega) hj, hok j (by omega) b]; exact sd j (by omega) (by omega)

end Mmg.Pack3
