/-
  Facts about the tables and the loops of `BdryModel`.
-/
import Verif.BdryModel
import Mathlib.Data.List.Nodup
import Mathlib.Data.List.Basic
import Mathlib.Tactic.Ring

namespace Mmg.Bdry

/-! ### Tables -/

theorem put_self {T : Tab} {f : Multiset Nat} {k : Nat} : T.put f k f = if T f = 0 then k else T f := by
  simp [Tab.put]

theorem put_other {T : Tab} {f g : Multiset Nat} {k : Nat} (h : g ≠ f) : T.put f k g = T g := by
  simp [Tab.put, h]

theorem put_ne {T : Tab} {f g : Multiset Nat} {k : Nat} (hk : k ≠ 0) : T.put f k g ≠ 0 ↔ T g ≠ 0 ∨ g = f := by
  by_cases h : g = f
  · subst h
    rw [put_self]
    by_cases h0 : T g = 0
    · simp [h0, hk]
    · simp [h0]
  · rw [put_other h]; simp [h]

/-- The table of a list of triangles gives the first place. -/
theorem putTris_eq (l : List Tri) : ∀ (n : Nat) (T : Tab) (f : Multiset Nat),
    putTris l (n + 1) T f =
      if T f ≠ 0 then T f else if f ∈ l.map Tri.key then n + 1 + (l.map Tri.key).idxOf f else 0 := by
  induction l with
  | nil => intro n T f; by_cases h : T f = 0 <;> simp [putTris, h]
  | cons t l ih =>
    intro n T f
    rw [putTris, ih]
    by_cases hf : f = t.key
    · subst hf
      rw [put_self]
      by_cases h : T t.key = 0
      · simp [h]
      · simp [h]
    · rw [put_other hf]
      by_cases h : T f = 0
      · have : (l.map Tri.key).idxOf f + 1 = ((t :: l).map Tri.key).idxOf f := by
          rw [List.map_cons, List.idxOf_cons_ne _ (Ne.symm hf)]
        simp only [h, ne_eq, not_true_eq_false, if_false, List.map_cons, List.mem_cons, hf, false_or]
        rw [← List.map_cons, ← this]
        by_cases hm : f ∈ l.map Tri.key
        · rw [if_pos hm, if_pos hm]; omega
        · rw [if_neg hm, if_neg hm]
      · simp [h]

/-- The table of a list of triangles. -/
def tab (l : List Tri) : Tab := putTris l 1 fun _ => 0

theorem tab_eq (l : List Tri) (f : Multiset Nat) :
    tab l f = if f ∈ l.map Tri.key then (l.map Tri.key).idxOf f + 1 else 0 := by
  rw [tab, putTris_eq]; simp [Nat.add_comm]

theorem tab_zero {l : List Tri} {f : Multiset Nat} : tab l f = 0 ↔ f ∉ l.map Tri.key := by
  rw [tab_eq]; by_cases h : f ∈ l.map Tri.key <;> simp [h]

theorem tab_snoc (l : List Tri) (t : Tri) : tab (l ++ [t]) = (tab l).put t.key (l.length + 1) := by
  funext f
  by_cases hf : f = t.key
  · subst hf
    rw [put_self, tab_eq, tab_eq]
    by_cases h : t.key ∈ l.map Tri.key
    · simp only [List.map_append, List.mem_append, h, true_or, if_true, Nat.succ_ne_zero, if_false]
      rw [List.idxOf_append_of_mem h]
    · have : t.key ∈ (l ++ [t]).map Tri.key := by simp
      rw [if_pos this, if_neg h, if_pos rfl, List.map_append, List.idxOf_append_of_notMem h]
      simp
  · rw [put_other hf, tab_eq, tab_eq]
    by_cases h : f ∈ l.map Tri.key
    · simp only [List.map_append, List.mem_append, h, true_or, if_true]
      rw [List.idxOf_append_of_mem h]
    · have : f ∉ (l ++ [t]).map Tri.key := by
        rw [List.map_append, List.mem_append]
        rintro (h1 | h1)
        · exact h h1
        · simp at h1; exact hf h1
      rw [if_neg this, if_neg h]

/-! ### Required triangles -/

theorem reqTag_idem (t : Nat) : reqTag (reqTag t) = reqTag t := by
  by_cases h : t &&& mgREQ ≠ 0
  · simp only [reqTag, if_pos h]
  · have h2 : (t ||| mgREQ ||| mgNOSURF) &&& mgREQ ≠ 0 := by
      intro e
      have := congrArg (fun n => n.testBit 2) e
      simp [mgREQ, mgNOSURF, Nat.testBit_or, Nat.testBit_and] at this
      exact absurd (this (.inl (.inr (by decide)))) (by decide)
    have e : reqTag t = t ||| mgREQ ||| mgNOSURF := by simp only [reqTag, if_neg h]
    rw [e]
    simp only [reqTag, if_pos h2]

theorem req_idem (t : Tri) : t.req.req = t.req := by
  simp [Tri.req, reqTag_idem]

theorem req_key (t : Tri) : t.req.key = t.key := rfl

theorem turn_key (t : Tri) (f : Nat × Nat × Nat) : (t.turn f).key = fkey f := rfl

theorem modify_eq_map {l : List Tri} (h : (l.map Tri.key).Nodup) {f : Multiset Nat} (hf : f ∈ l.map Tri.key) (g : Tri → Tri) :
    l.modify ((l.map Tri.key).idxOf f) g = l.map fun t => if t.key = f then g t else t := by
  induction l with
  | nil => simp at hf
  | cons t l ih =>
    rw [List.map_cons, List.nodup_cons] at h
    by_cases ht : t.key = f
    · subst ht
      rw [List.map_cons, List.idxOf_cons_self, List.modify_zero_cons, List.map_cons, if_pos rfl]
      congr 1
      symm
      refine (List.map_congr_left ?_).trans (List.map_id l)
      intro a ha
      rw [if_neg]
      · rfl
      · intro e
        exact h.1 (by rw [← e]; exact List.mem_map_of_mem ha)
    · have hf' : f ∈ l.map Tri.key := by
        rw [List.map_cons, List.mem_cons] at hf
        exact hf.resolve_left (Ne.symm ht)
      rw [List.map_cons, List.idxOf_cons_ne _ ht, List.modify_succ_cons, ih h.2 hf', List.map_cons, if_neg ht]

theorem modify_left (g : Tri → Tri) : ∀ (i : Nat) (l m : List Tri), i < l.length →
    (l ++ m).modify i g = l.modify i g ++ m := by
  intro i
  induction i with
  | zero => intro l m h; cases l with
    | nil => simp at h
    | cons a l => simp
  | succ i ih => intro l m h; cases l with
    | nil => simp at h
    | cons a l =>
      rw [List.cons_append, List.modify_succ_cons, List.modify_succ_cons, ih l m (by simpa using h), List.cons_append]

/-! ### The loops that add triangles -/

theorem tnew_key (M : Mesh) (O : Opt) (q : Nat × Nat) : (tnew M O q).key = fkey (M.tface q) := rfl
theorem pnew_key (M : Mesh) (O : Opt) (q : Nat × Nat) : (pnew M O q).key = fkey (M.pface q) := rfl

/-- Faces of prisms that the last loop adds. -/
def padd (M : Mesh) (q : Nat × Nat) : Bool :=
  !decide (M.padj q.1 q.2 < 0) &&
    !decide (M.padj q.1 q.2 / 5 ≠ 0 ∧ M.pref q.1 ≤ M.pref (M.padj q.1 q.2 / 5).toNat)

theorem addTet_eq (M : Mesh) (O : Opt) (K : List Tri) : ∀ (l : List (Nat × Nat)) (s : List Tri × Tab),
    (((l.filter (tadd M O)).map fun q => fkey (M.tface q)).Nodup) →
    (∀ q ∈ l, tadd M O q = true → (s.2 (fkey (M.tface q)) = 0 ↔ fkey (M.tface q) ∉ K.map Tri.key)) →
    (M.np ≠ 0 → s.2 = tab s.1) →
    (addTet M O l s).1 = s.1 ++ (l.filter fun q => tadd M O q && decide (fkey (M.tface q) ∉ K.map Tri.key)).map (tnew M O) ∧
      (M.np ≠ 0 → (addTet M O l s).2 = tab (addTet M O l s).1) := by
  intro l
  induction l with
  | nil => intro s _ _ ht; exact ⟨by simp [addTet], ht⟩
  | cons q l ih =>
    intro s hnd hk ht
    unfold addTet
    by_cases ha : tadd M O q = true
    · have hq := hk q (List.mem_cons_self ..) ha
      rw [List.filter_cons_of_pos ha, List.map_cons, List.nodup_cons] at hnd
      by_cases h0 : s.2 (fkey (M.tface q)) = 0
      · have hc : (tadd M O q && decide (s.2 (fkey (M.tface q)) = 0)) = true := by simp [ha, h0]
        rw [if_pos hc]
        have hd : (tadd M O q && decide (fkey (M.tface q) ∉ K.map Tri.key)) = true := by
          rw [ha, Bool.true_and]; exact decide_eq_true (hq.1 h0)
        rw [List.filter_cons_of_pos (p := fun q => tadd M O q && decide (fkey (M.tface q) ∉ K.map Tri.key)) hd]
        obtain ⟨h1, h2⟩ := ih (s.1 ++ [tnew M O q],
            if M.np = 0 then s.2 else s.2.put (fkey (M.tface q)) (s.1.length + 1)) hnd.2 (by
          intro q' hq' ha'
          rw [← hk q' (List.mem_cons_of_mem _ hq') ha']
          show (if M.np = 0 then s.2 else s.2.put (fkey (M.tface q)) (s.1.length + 1)) (fkey (M.tface q')) = 0 ↔ _
          by_cases hn : M.np = 0
          · rw [if_pos hn]
          · rw [if_neg hn, put_other]
            intro e
            apply hnd.1
            rw [← e]
            exact List.mem_map_of_mem (f := fun q => fkey (M.tface q)) (List.mem_filter.2 ⟨hq', ha'⟩)) (by
          intro hn
          show (if M.np = 0 then s.2 else s.2.put (fkey (M.tface q)) (s.1.length + 1)) = tab (s.1 ++ [tnew M O q])
          rw [if_neg hn, tab_snoc, ht hn, tnew_key])
        refine ⟨?_, h2⟩
        rw [h1]; simp
      · have hc : ¬ (tadd M O q && decide (s.2 (fkey (M.tface q)) = 0)) = true := by simp [h0]
        rw [if_neg hc]
        have hd : ¬ (tadd M O q && decide (fkey (M.tface q) ∉ K.map Tri.key)) = true := by
          rw [ha, Bool.true_and]; intro e; exact h0 (hq.2 (of_decide_eq_true e))
        rw [List.filter_cons_of_neg (p := fun q => tadd M O q && decide (fkey (M.tface q) ∉ K.map Tri.key)) hd]
        exact ih s hnd.2 (fun q' hq' => hk q' (List.mem_cons_of_mem _ hq')) ht
    · have hc : ¬ (tadd M O q && decide (s.2 (fkey (M.tface q)) = 0)) = true := by simp [ha]
      have hd : ¬ (tadd M O q && decide (fkey (M.tface q) ∉ K.map Tri.key)) = true := by simp [ha]
      rw [if_neg hc, List.filter_cons_of_neg (p := fun q => tadd M O q && decide (fkey (M.tface q) ∉ K.map Tri.key)) hd]
      rw [List.filter_cons_of_neg ha] at hnd
      exact ih s hnd (fun q' hq' => hk q' (List.mem_cons_of_mem _ hq')) ht

/-- The faces marked as faces of tetrahedra. -/
def marked (M : Mesh) (l : List (Nat × Nat)) : List (Multiset Nat) :=
  (l.filter fun q => decide (M.padj q.1 q.2 < 0)).map fun q => fkey (M.pface q)

/-- Triangles of marked faces become required. -/
def reqIn (A : List (Multiset Nat)) (t : Tri) : Tri := if t.key ∈ A then t.req else t

theorem reqIn_key (A : List (Multiset Nat)) (t : Tri) : (reqIn A t).key = t.key := by
  unfold reqIn; split_ifs <;> rfl

theorem addPrism_eq (M : Mesh) (O : Opt) (K : List Tri) (hK : (K.map Tri.key).Nodup) :
    ∀ (l : List (Nat × Nat)) (s N : List Tri), s.map Tri.key = K.map Tri.key →
    ((N.map Tri.key ++ (l.filter (padd M)).map fun q => fkey (M.pface q)).Nodup) →
    (∀ f ∈ marked M l, f ∈ K.map Tri.key) →
    (∀ f ∈ N.map Tri.key, f ∉ K.map Tri.key) →
    addPrism M O (tab K) l (s ++ N) = s.map (reqIn (marked M l)) ++
      (N ++ (l.filter fun q => padd M q && decide (fkey (M.pface q) ∉ K.map Tri.key)).map (pnew M O)) := by
  intro l
  induction l with
  | nil =>
    intro s N _ _ _ _
    have : s.map (reqIn (marked M [])) = s := by
      refine (List.map_congr_left ?_).trans (List.map_id s)
      intro a _; simp [reqIn, marked]
    simp [addPrism, this]
  | cons q l ih =>
    intro s N hs hnd hm hN
    unfold addPrism
    by_cases hneg : M.padj q.1 q.2 < 0
    · rw [if_pos hneg]
      have hpf : ¬ padd M q = true := by simp [padd, hneg]
      have hmk : marked M (q :: l) = fkey (M.pface q) :: marked M l := by
        simp [marked, List.filter_cons, hneg]
      have hin : fkey (M.pface q) ∈ K.map Tri.key := hm _ (by rw [hmk]; exact List.mem_cons_self ..)
      have hne : s ++ N ≠ [] := by
        intro e
        have := (List.append_eq_nil_iff.1 e).1
        rw [← hs, this] at hin
        simp at hin
      have ht0 : tab K (fkey (M.pface q)) ≠ 0 := by
        intro e; exact (tab_zero.1 e) hin
      have hidx : tab K (fkey (M.pface q)) - 1 = (s.map Tri.key).idxOf (fkey (M.pface q)) := by
        rw [tab_eq, if_pos hin, hs]; rfl
      have hlt : (s.map Tri.key).idxOf (fkey (M.pface q)) < s.length := by
        rw [← List.length_map (f := Tri.key)]
        exact List.idxOf_lt_length_of_mem (by rw [hs]; exact hin)
      rw [if_neg hne, if_neg ht0, hidx]
      rw [List.filter_cons_of_neg hpf] at hnd
      rw [List.filter_cons_of_neg (p := fun q => padd M q && decide (fkey (M.pface q) ∉ K.map Tri.key)) (by
        rw [Bool.and_eq_true]; exact fun h => hpf h.1)]
      have hmod : (s ++ N).modify ((s.map Tri.key).idxOf (fkey (M.pface q))) Tri.req =
          (s.map fun t => if t.key = fkey (M.pface q) then t.req else t) ++ N := by
        rw [modify_left _ _ _ _ hlt]
        rw [modify_eq_map (by rw [hs]; exact hK) (by rw [hs]; exact hin)]
      rw [hmod, ih _ N (by
          rw [← hs, List.map_map]
          refine List.map_congr_left ?_
          intro a _
          simp only [Function.comp]
          split_ifs <;> rfl) hnd (fun f hf => hm f (by rw [hmk]; exact List.mem_cons_of_mem _ hf)) hN]
      congr 1
      rw [List.map_map]
      refine List.map_congr_left ?_
      intro a _
      simp only [Function.comp, hmk, reqIn, List.mem_cons]
      by_cases h1 : a.key = fkey (M.pface q)
      · simp only [h1, if_true, true_or]
        by_cases h2 : a.req.key ∈ marked M l
        · rw [if_pos h2, req_idem]
        · rw [if_neg h2]
      · simp [h1]
    · rw [if_neg hneg]
      have hmk : marked M (q :: l) = marked M l := by simp [marked, List.filter_cons, hneg]
      rw [hmk] at hm ⊢
      by_cases hskip : M.padj q.1 q.2 / 5 ≠ 0 ∧ M.pref q.1 ≤ M.pref (M.padj q.1 q.2 / 5).toNat
      · have hpf : ¬ padd M q = true := by
          rw [padd, decide_eq_true hskip]; simp
        rw [if_pos hskip]
        rw [List.filter_cons_of_neg hpf] at hnd
        rw [List.filter_cons_of_neg (p := fun q => padd M q && decide (fkey (M.pface q) ∉ K.map Tri.key)) (by
          rw [Bool.and_eq_true]; exact fun h => hpf h.1)]
        exact ih s N hs hnd hm hN
      · have hpf : padd M q = true := by
          simp only [padd, hneg, decide_false, Bool.not_false, Bool.true_and, Bool.not_eq_true']
          exact decide_eq_false hskip
        rw [if_neg hskip]
        rw [List.filter_cons_of_pos hpf, List.map_cons] at hnd
        by_cases hin : fkey (M.pface q) ∈ K.map Tri.key
        · rw [if_pos (by intro e; exact (tab_zero.1 e) hin)]
          rw [List.filter_cons_of_neg (p := fun q => padd M q && decide (fkey (M.pface q) ∉ K.map Tri.key)) (by
            rw [Bool.and_eq_true]; exact fun h => (of_decide_eq_true h.2) hin)]
          exact ih s N hs (hnd.sublist (List.Sublist.append_left (List.sublist_cons_self ..) _)) hm hN
        · rw [if_neg (by rw [not_not]; exact tab_zero.2 hin)]
          rw [List.filter_cons_of_pos (p := fun q => padd M q && decide (fkey (M.pface q) ∉ K.map Tri.key)) (by
            rw [hpf, Bool.true_and]; exact decide_eq_true hin)]
          rw [List.append_assoc, ih s (N ++ [pnew M O q]) hs (by
              rw [List.map_append, List.append_assoc]; exact hnd) hm (by
              intro f hf
              rw [List.map_append, List.mem_append] at hf
              rcases hf with hf | hf
              · exact hN f hf
              · simp only [List.map_cons, List.map_nil, List.mem_singleton] at hf
                rw [hf]; exact hin)]
          simp

end Mmg.Bdry
