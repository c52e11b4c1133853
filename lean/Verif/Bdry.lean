/-
  The triangles of the analysed mesh are exactly the boundary faces of its tetrahedra and prisms.
-/
import Verif.BdryLemmas
import Mathlib.Data.List.Perm.Subperm
import Mathlib.Data.List.Forall2
import Mathlib.Data.List.InsertIdx
import Mathlib.Data.List.Perm.Lattice
import Mathlib.Tactic.IntervalCases

namespace Mmg.Bdry

/-! ### Specification -/

/-- A mesh whose neighbours are right (C04, C05, C42): a neighbour is another element with the same face, all pairs of faces with the same
vertices are neighbours; a face of a tetrahedron and of a prism has no other element. -/
structure Wf (M : Mesh) : Prop where
  tadj : ∀ q ∈ M.tfaces, M.tadj q.1 q.2 = 0 ∨
    ∃ q' ∈ M.tfaces, q' ≠ q ∧ M.tadj q.1 q.2 = 4 * q'.1 + q'.2 ∧ fkey (M.tface q') = fkey (M.tface q)
  tall : ∀ q ∈ M.tfaces, ∀ q' ∈ M.tfaces, q ≠ q' → fkey (M.tface q) = fkey (M.tface q') →
    M.tadj q.1 q.2 = 4 * q'.1 + q'.2
  padj : ∀ q ∈ M.pfaces, M.padj q.1 q.2 = 0 ∨
    ∃ q' ∈ M.pfaces, q' ≠ q ∧ M.padj q.1 q.2 = 5 * q'.1 + q'.2 ∧ fkey (M.pface q') = fkey (M.pface q)
  pall : ∀ q ∈ M.pfaces, ∀ q' ∈ M.pfaces, q ≠ q' → fkey (M.pface q) = fkey (M.pface q') →
    M.padj q.1 q.2 = 5 * q'.1 + q'.2
  mixed : ∀ q ∈ M.tfaces, ∀ q' ∈ M.pfaces, fkey (M.tface q) = fkey (M.pface q') → M.tadj q.1 q.2 = 0 ∧ M.padj q'.1 q'.2 = 0

/-- A face of a tetrahedron without neighbour among the tetrahedra or with a neighbour of another reference. -/
def OnT (M : Mesh) (f : Multiset Nat) : Prop :=
  ∃ q ∈ M.tfaces, fkey (M.tface q) = f ∧ (M.tadj q.1 q.2 = 0 ∨ M.tref q.1 ≠ M.tref (M.tadj q.1 q.2 / 4))

/-- The same for the triangular faces of the prisms. -/
def OnP (M : Mesh) (f : Multiset Nat) : Prop :=
  ∃ q ∈ M.pfaces, fkey (M.pface q) = f ∧ (M.padj q.1 q.2 = 0 ∨ M.pref q.1 ≠ M.pref (M.padj q.1 q.2 / 5).toNat)

/-- Boundary faces. -/
def Bd (M : Mesh) (f : Multiset Nat) : Prop := OnT M f ∨ OnP M f

/-- A face of a tetrahedron and of a prism. -/
def Shared (M : Mesh) (f : Multiset Nat) : Prop :=
  (∃ q ∈ M.tfaces, fkey (M.tface q) = f) ∧ ∃ q ∈ M.pfaces, fkey (M.pface q) = f

/-- Between a tetrahedron and a prism the triangle becomes required, else nothing changes. -/
def Same (M : Mesh) (t t' : Tri) : Prop := (Shared M t.key → t' = t.req) ∧ (¬ Shared M t.key → t' = t)

/-- The triangles `out` are, once each, the faces that are wanted: first the ones of the user with their data (the first
one if a face is given several times), then new ones. -/
structure Found (M : Mesh) (O : Opt) (want : Multiset Nat → Prop) (out : List Tri) : Prop where
  nodup : (out.map Tri.key).Nodup
  mem : ∀ f, f ∈ out.map Tri.key ↔ want f
  parts : ∃ kept new, List.Forall₂ (Same M) (kept ++ new) out ∧ kept.Sublist M.tri ∧
    (∀ t, t ∈ kept ↔ want t.key ∧ M.tri.find? (fun u => decide (u.key = t.key)) = some t) ∧
    ∀ t ∈ new, t.key ∉ M.tri.map Tri.key ∧
      ((∃ q ∈ M.tfaces, tadd M O q = true ∧ t = tnew M O q) ∨ ∃ q ∈ M.pfaces, t = pnew M O q)

/-! ### Faces -/

theorem mem_tfaces {M : Mesh} {q : Nat × Nat} : q ∈ M.tfaces ↔ (1 ≤ q.1 ∧ q.1 ≤ M.ne) ∧ M.tok q.1 = true ∧ q.2 < 4 := by
  obtain ⟨k, i⟩ := q
  simp only [Mesh.tfaces, List.mem_flatMap, List.mem_filter, List.mem_range'_1, List.mem_cons, Prod.mk.injEq,
    List.not_mem_nil, or_false]
  constructor
  · rintro ⟨k', ⟨h1, h2⟩, h⟩
    rcases h with ⟨rfl, rfl⟩ | ⟨rfl, rfl⟩ | ⟨rfl, rfl⟩ | ⟨rfl, rfl⟩ <;> exact ⟨by omega, h2, by omega⟩
  · rintro ⟨h1, h2, h3⟩
    exact ⟨k, ⟨by omega, h2⟩, by omega⟩

theorem mem_pfaces {M : Mesh} {q : Nat × Nat} : q ∈ M.pfaces ↔ (1 ≤ q.1 ∧ q.1 ≤ M.np) ∧ M.pok q.1 = true ∧ q.2 < 2 := by
  obtain ⟨k, i⟩ := q
  simp only [Mesh.pfaces, List.mem_flatMap, List.mem_filter, List.mem_range'_1, List.mem_cons, Prod.mk.injEq,
    List.not_mem_nil, or_false]
  constructor
  · rintro ⟨k', ⟨h1, h2⟩, h⟩
    rcases h with ⟨rfl, rfl⟩ | ⟨rfl, rfl⟩ <;> exact ⟨by omega, h2, by omega⟩
  · rintro ⟨h1, h2, h3⟩
    exact ⟨k, ⟨by omega, h2⟩, by omega⟩

theorem tfaces_nodup (M : Mesh) : M.tfaces.Nodup := by
  unfold Mesh.tfaces
  rw [List.nodup_flatMap]
  refine ⟨fun k _ => by simp, ?_⟩
  refine List.Nodup.pairwise_of_forall_ne ((List.nodup_range' (s := 1) (step := 1)).filter _) ?_
  intro a _ b _ hab
  simp only [Function.onFun, List.disjoint_left, List.mem_cons, List.not_mem_nil, or_false]
  rintro q (h | h | h | h) <;> · subst h; simp [hab]

theorem pfaces_nodup (M : Mesh) : M.pfaces.Nodup := by
  unfold Mesh.pfaces
  rw [List.nodup_flatMap]
  refine ⟨fun k _ => by simp, ?_⟩
  refine List.Nodup.pairwise_of_forall_ne ((List.nodup_range' (s := 1) (step := 1)).filter _) ?_
  intro a _ b _ hab
  simp only [Function.onFun, List.disjoint_left, List.mem_cons, List.not_mem_nil, or_false]
  rintro q (h | h) <;> · subst h; simp [hab]

/-- The keys of a filtered list are different when the filter takes at most one face of each key. -/
theorem keys_nodup {l : List (Nat × Nat)} (hl : l.Nodup) (p : Nat × Nat → Bool) (g : Nat × Nat → Multiset Nat)
    (h : ∀ q ∈ l, ∀ q' ∈ l, p q = true → p q' = true → g q = g q' → q = q') : ((l.filter p).map g).Nodup := by
  refine List.Nodup.map_on ?_ (hl.filter _)
  intro x hx y hy e
  rw [List.mem_filter] at hx hy
  exact h x hx.1 y hy.1 hx.2 hy.2 e

/-- A list without repetition inside another one that is not longer has the same elements. -/
theorem pigeon {α : Type} {A B : List α} (hA : A.Nodup) (hs : ∀ a ∈ A, a ∈ B) (hl : B.length ≤ A.length) :
    ∀ b ∈ B, b ∈ A := by
  have h1 : List.Subperm A B := hA.subperm hs
  have h2 := h1.perm_of_length_le hl
  intro b hb
  exact h2.mem_iff.2 hb

/-! ### `MMG5_bdryTria` -/

/-- Keys of the faces that have to be triangles. -/
def ownT (M : Mesh) (O : Opt) : List (Multiset Nat) := (M.tfaces.filter (tadd M O)).map fun q => fkey (M.tface q)
def ownP (M : Mesh) : List (Multiset Nat) := (M.pfaces.filter (padd M)).map fun q => fkey (M.pface q)

def newT (M : Mesh) (O : Opt) : List Tri :=
  (M.tfaces.filter fun q => tadd M O q && decide (fkey (M.tface q) ∉ M.tri.map Tri.key)).map (tnew M O)
def newP (M : Mesh) (O : Opt) : List Tri :=
  (M.pfaces.filter fun q => padd M q && decide (fkey (M.pface q) ∉ M.tri.map Tri.key)).map (pnew M O)

theorem newT_keys (M : Mesh) (O : Opt) (f : Multiset Nat) :
    f ∈ (newT M O).map Tri.key ↔ f ∈ ownT M O ∧ f ∉ M.tri.map Tri.key := by
  simp only [newT, ownT, List.mem_map, List.mem_filter, Bool.and_eq_true, decide_eq_true_eq]
  constructor
  · rintro ⟨_, ⟨q, ⟨hq, h1, h2⟩, rfl⟩, rfl⟩
    exact ⟨⟨q, ⟨hq, h1⟩, rfl⟩, h2⟩
  · rintro ⟨⟨q, ⟨hq, h1⟩, rfl⟩, h2⟩
    exact ⟨_, ⟨q, ⟨hq, h1, h2⟩, rfl⟩, rfl⟩

theorem newP_keys (M : Mesh) (O : Opt) (f : Multiset Nat) :
    f ∈ (newP M O).map Tri.key ↔ f ∈ ownP M ∧ f ∉ M.tri.map Tri.key := by
  simp only [newP, ownP, List.mem_map, List.mem_filter, Bool.and_eq_true, decide_eq_true_eq]
  constructor
  · rintro ⟨_, ⟨q, ⟨hq, h1, h2⟩, rfl⟩, rfl⟩
    exact ⟨⟨q, ⟨hq, h1⟩, rfl⟩, h2⟩
  · rintro ⟨⟨q, ⟨hq, h1⟩, rfl⟩, h2⟩
    exact ⟨_, ⟨q, ⟨hq, h1, h2⟩, rfl⟩, rfl⟩

theorem newT_sub (M : Mesh) (O : Opt) : ((newT M O).map Tri.key).Sublist (ownT M O) := by
  have e : (newT M O).map Tri.key =
      (M.tfaces.filter fun q => tadd M O q && decide (fkey (M.tface q) ∉ M.tri.map Tri.key)).map fun q => fkey (M.tface q) := by
    rw [newT, List.map_map]; rfl
  rw [e, ownT]
  refine List.Sublist.map _ ?_
  exact List.monotone_filter_right _ fun a h => by simp only [Bool.and_eq_true] at h; exact h.1

theorem newP_sub (M : Mesh) (O : Opt) : ((newP M O).map Tri.key).Sublist (ownP M) := by
  have e : (newP M O).map Tri.key =
      (M.pfaces.filter fun q => padd M q && decide (fkey (M.pface q) ∉ M.tri.map Tri.key)).map fun q => fkey (M.pface q) := by
    rw [newP, List.map_map]; rfl
  rw [e, ownP]
  refine List.Sublist.map _ ?_
  exact List.monotone_filter_right _ fun a h => by simp only [Bool.and_eq_true] at h; exact h.1

theorem pfaces_nil {M : Mesh} (h : M.np = 0) : M.pfaces = [] := by simp [Mesh.pfaces, h]

/-- The triangles after `MMG5_bdryTria`. -/
theorem bdryTria_tri (M : Mesh) (O : Opt) (n : Nat) (hnd : (M.tri.map Tri.key).Nodup)
    (hown : (ownT M O ++ ownP M).Nodup) (hmark : ∀ f ∈ marked M M.pfaces, f ∈ ownT M O)
    (hn : n = M.tri.length → ∀ f ∈ ownT M O ++ ownP M, f ∈ M.tri.map Tri.key) :
    (bdryTria M O n).tri = (M.tri ++ newT M O).map (reqIn (marked M M.pfaces)) ++ newP M O := by
  have hdis := List.nodup_append.1 hown
  -- the loop on the tetrahedra
  have main : ∀ s : List Tri × Tab, s = (if n ≠ M.tri.length then addTet M O M.tfaces (M.tri, tab M.tri) else (M.tri, tab M.tri)) →
      s.1 = M.tri ++ newT M O ∧ (M.np ≠ 0 → s.2 = tab s.1) := by
    rintro s rfl
    by_cases h : n = M.tri.length
    · rw [if_neg (by simpa using h)]
      have : newT M O = [] := by
        rw [newT, List.map_eq_nil_iff, List.filter_eq_nil_iff]
        intro q hq
        rw [Bool.and_eq_true]
        rintro ⟨h1, h2⟩
        exact (of_decide_eq_true h2) (hn h _ (List.mem_append_left _ (List.mem_map_of_mem
          (f := fun q => fkey (M.tface q)) (List.mem_filter.2 ⟨hq, h1⟩))))
      exact ⟨by rw [this, List.append_nil], fun _ => rfl⟩
    · rw [if_pos h]
      exact addTet_eq M O M.tri M.tfaces (M.tri, tab M.tri) hdis.1 (fun q _ _ => tab_zero) (fun _ => rfl)
  obtain ⟨h1, h2⟩ := main _ rfl
  show addPrism M O (if n ≠ M.tri.length then addTet M O M.tfaces (M.tri, tab M.tri) else (M.tri, tab M.tri)).2 M.pfaces
    (if n ≠ M.tri.length then addTet M O M.tfaces (M.tri, tab M.tri) else (M.tri, tab M.tri)).1 = _
  by_cases hnp : M.np = 0
  · have e : newP M O = [] := by rw [newP, pfaces_nil hnp]; rfl
    rw [h1, pfaces_nil hnp, e, List.append_nil]
    show _ = List.map (reqIn (marked M [])) _
    refine (List.map_id _).symm.trans (List.map_congr_left ?_)
    intro a _; simp [reqIn, marked]
  · rw [h2 hnp, h1]
    have hK : ((M.tri ++ newT M O).map Tri.key).Nodup := by
      rw [List.map_append, List.nodup_append]
      refine ⟨hnd, hdis.1.sublist (newT_sub M O), ?_⟩
      intro a ha b hb e
      subst e
      exact ((newT_keys M O a).1 hb).2 ha
    have := addPrism_eq M O (M.tri ++ newT M O) hK M.pfaces (M.tri ++ newT M O) [] rfl (by rw [List.map_nil, List.nil_append]; exact hdis.2.1)
      (by
        intro f hf
        by_cases hm : f ∈ M.tri.map Tri.key
        · rw [List.map_append]; exact List.mem_append_left _ hm
        · rw [List.map_append]; exact List.mem_append_right _ ((newT_keys M O f).2 ⟨hmark f hf, hm⟩)) (by simp)
    rw [List.append_nil, List.nil_append] at this
    rw [this]
    congr 2
    refine List.filter_congr ?_
    intro q hq
    by_cases hp : padd M q = true
    · rw [hp, Bool.true_and, Bool.true_and]
      congr 1
      rw [List.map_append, List.mem_append, not_or]
      refine propext ⟨fun h => h.1, fun h => ⟨h, ?_⟩⟩
      intro h'
      exact hdis.2.2 _ ((newT_keys M O _).1 h').1 _ (List.mem_map_of_mem (f := fun q => fkey (M.pface q)) (List.mem_filter.2 ⟨hq, hp⟩)) rfl
    · simp [hp]

theorem reqIn_map_key (A : List (Multiset Nat)) (l : List Tri) : (l.map (reqIn A)).map Tri.key = l.map Tri.key := by
  rw [List.map_map]
  refine List.map_congr_left ?_
  intro a _; exact reqIn_key A a

/-- What `MMG5_bdryTria` finds. -/
theorem bdryTria_found (M : Mesh) (O : Opt) (n : Nat) (hnd : (M.tri.map Tri.key).Nodup)
    (hown : (ownT M O ++ ownP M).Nodup) (hmark : ∀ f ∈ marked M M.pfaces, f ∈ ownT M O)
    (hn : n = M.tri.length → ∀ f ∈ ownT M O ++ ownP M, f ∈ M.tri.map Tri.key) :
    ((bdryTria M O n).tri.map Tri.key).Nodup ∧
      (∀ f, f ∈ (bdryTria M O n).tri.map Tri.key ↔ f ∈ M.tri.map Tri.key ∨ f ∈ ownT M O ++ ownP M) := by
  have hdis := List.nodup_append.1 hown
  rw [bdryTria_tri M O n hnd hown hmark hn, List.map_append, reqIn_map_key, List.map_append]
  constructor
  · rw [List.nodup_append, List.nodup_append]
    refine ⟨⟨hnd, hdis.1.sublist (newT_sub M O), ?_⟩, hdis.2.1.sublist (newP_sub M O), ?_⟩
    · intro a ha b hb e
      subst e
      exact ((newT_keys M O a).1 hb).2 ha
    · intro a ha b hb e
      subst e
      rcases List.mem_append.1 ha with h | h
      · exact ((newP_keys M O a).1 hb).2 h
      · exact hdis.2.2 a ((newT_keys M O a).1 h).1 a ((newP_keys M O a).1 hb).1 rfl
  · intro f
    simp only [List.mem_append, newT_keys, newP_keys]
    by_cases h : f ∈ M.tri.map Tri.key <;> simp [h]

/-! ### Tables made by loops -/

/-- A loop that puts the faces satisfying `c` in a table. -/
theorem fold_put (st : Tab → Nat × Nat → Tab) (c : Nat × Nat → Prop) (g : Nat × Nat → Multiset Nat) (code : Nat × Nat → Nat)
    (l : List (Nat × Nat)) (hcode : ∀ q ∈ l, code q ≠ 0)
    (hst : ∀ q ∈ l, ∀ T f, (st T q f = T f ∧ (T f ≠ 0 ∨ ¬ (c q ∧ g q = f))) ∨ (T f = 0 ∧ c q ∧ g q = f ∧ st T q f = code q)) :
    ∀ T f, ((l.foldl st T) f ≠ 0 ↔ T f ≠ 0 ∨ ∃ q ∈ l, c q ∧ g q = f) ∧
      (T f = 0 → (l.foldl st T) f ≠ 0 → ∃ q ∈ l, c q ∧ g q = f ∧ (l.foldl st T) f = code q) ∧
      (T f ≠ 0 → (l.foldl st T) f = T f) := by
  induction l with
  | nil => intro T f; simp
  | cons q l ih =>
    intro T f
    have h := ih (fun q hq => hcode q (List.mem_cons_of_mem _ hq)) (fun q hq => hst q (List.mem_cons_of_mem _ hq)) (st T q) f
    have hq := hcode q (List.mem_cons_self ..)
    rw [List.foldl_cons]
    rcases hst q (List.mem_cons_self ..) T f with ⟨h1, h2⟩ | ⟨h1, h2, h3, h4⟩
    · rw [h1] at h
      refine ⟨?_, ?_, h.2.2⟩
      · rw [h.1]
        constructor
        · rintro (h5 | ⟨q', hq', h5⟩)
          · exact .inl h5
          · exact .inr ⟨q', List.mem_cons_of_mem _ hq', h5⟩
        · rintro (h5 | ⟨q', hq', h5⟩)
          · exact .inl h5
          · rcases List.mem_cons.1 hq' with rfl | hq'
            · exact .inl (h2.resolve_right (fun h6 => h6 h5))
            · exact .inr ⟨q', hq', h5⟩
      · intro h5 h6
        obtain ⟨q', hq', h7⟩ := h.2.1 h5 h6
        exact ⟨q', List.mem_cons_of_mem _ hq', h7⟩
    · rw [h4] at h
      have h5 := h.2.2 hq
      refine ⟨?_, ?_, fun h6 => absurd h1 h6⟩
      · rw [h5]
        exact ⟨fun _ => .inr ⟨q, List.mem_cons_self .., h2, h3⟩, fun _ => hq⟩
      · intro _ _
        exact ⟨q, List.mem_cons_self .., h2, h3, h5⟩

theorem put_step (T : Tab) (g f : Multiset Nat) (k : Nat) :
    (T.put g k f = T f ∧ (T f ≠ 0 ∨ ¬ g = f)) ∨ (T f = 0 ∧ g = f ∧ T.put g k f = k) := by
  by_cases h : f = g
  · subst h
    rw [put_self]
    by_cases h0 : T f = 0
    · exact .inr ⟨h0, rfl, if_pos h0⟩
    · exact .inl ⟨if_neg h0, .inl h0⟩
  · exact .inl ⟨put_other h, .inr fun e => h e.symm⟩

theorem put_twice (T : Tab) (g : Multiset Nat) (k : Nat) (hk : k ≠ 0) : (T.put g k).put g k = T.put g k := by
  funext f
  by_cases h : f = g
  · subst h
    rw [put_self, put_self]
    by_cases h0 : T f = 0 <;> simp [h0, hk]
  · rw [put_other h]

theorem cond_step (T : Tab) (c : Prop) [Decidable c] (g f : Multiset Nat) (k : Nat) :
    ((if c then T.put g k else T) f = T f ∧ (T f ≠ 0 ∨ ¬ (c ∧ g = f))) ∨
      (T f = 0 ∧ c ∧ g = f ∧ (if c then T.put g k else T) f = k) := by
  by_cases h : c
  · rw [if_pos h]
    rcases put_step T g f k with ⟨h1, h2⟩ | ⟨h1, h2, h3⟩
    · exact .inl ⟨h1, h2.imp id fun h3 h4 => h3 h4.2⟩
    · exact .inr ⟨h1, h, h2, h3⟩
  · rw [if_neg h]
    exact .inl ⟨rfl, .inr fun h1 => h h1.1⟩

theorem alone_ne (M : Mesh) (f : Multiset Nat) :
    alone M f ≠ 0 ↔ ∃ q ∈ M.tfaces, M.tadj q.1 q.2 = 0 ∧ fkey (M.tface q) = f := by
  have := (fold_put (fun T q => if M.tadj q.1 q.2 = 0 then T.put (fkey (M.tface q)) (5 * q.1 + q.2) else T)
    (fun q => M.tadj q.1 q.2 = 0) (fun q => fkey (M.tface q)) (fun q => 5 * q.1 + q.2) M.tfaces
    (fun q hq => by have := (mem_tfaces.1 hq).1.1; omega)
    (fun q _ T f => cond_step T _ _ f _) (fun _ => 0) f).1
  unfold alone
  rw [this]; simp

/-! ### The sieve -/

theorem find_cons {u : Tri} {l : List Tri} {f : Multiset Nat} :
    (u :: l).find? (fun v => decide (v.key = f)) = if u.key = f then some u else l.find? fun v => decide (v.key = f) := by
  by_cases h : u.key = f
  · rw [List.find?_cons_of_pos (by simpa using h), if_pos h]
  · rw [List.find?_cons_of_neg (by simpa using h), if_neg h]

/-- A kept triangle between tetrahedra of the same reference. -/
def inner (M : Mesh) (O : Opt) (H : Tab) (t : Tri) : Bool :=
  O.opnbdy && decide (M.tadj (H t.key / 4) (H t.key % 4) ≠ 0) &&
    decide (M.tref (H t.key / 4) = M.tref (M.tadj (H t.key / 4) (H t.key % 4) / 4))

theorem sieve_spec (M : Mesh) (O : Opt) (H : Tab) : ∀ (l : List Tri) (k : Nat) (U : Tab), k ≠ 0 →
    (sieve M O H l k U).1.Sublist l ∧ ((sieve M O H l k U).1.map Tri.key).Nodup ∧
    (∀ t, t ∈ (sieve M O H l k U).1 ↔ (U t.key = 0 ∧ H t.key ≠ 0) ∧ l.find? (fun u => decide (u.key = t.key)) = some t) ∧
    (sieve M O H l k U).2 = (sieve M O H l k U).1.countP (inner M O H) := by
  intro l
  induction l with
  | nil => intro k U _; simp [sieve]
  | cons u l ih =>
    intro k U hk
    obtain ⟨h1, h2, h3, h4⟩ := ih (k + 1) (U.put u.key k) (Nat.succ_ne_zero _)
    have hU : ∀ f, U.put u.key k f = 0 ↔ U f = 0 ∧ f ≠ u.key := by
      intro f
      have := put_ne (T := U) (f := u.key) (g := f) hk
      tauto
    have drop : (U u.key ≠ 0 ∨ H u.key = 0) → ∀ t, (t ∈ (sieve M O H l (k + 1) (U.put u.key k)).1 ↔
        (U t.key = 0 ∧ H t.key ≠ 0) ∧ (u :: l).find? (fun u => decide (u.key = t.key)) = some t) := by
      intro hd t
      rw [h3, hU, find_cons]
      constructor
      · rintro ⟨⟨⟨a, b⟩, c⟩, d⟩
        exact ⟨⟨a, c⟩, by rw [if_neg (Ne.symm b)]; exact d⟩
      · rintro ⟨⟨a, c⟩, d⟩
        have b : t.key ≠ u.key := by
          intro e
          rw [e] at a c
          rcases hd with hd | hd
          · exact hd a
          · exact c hd
        rw [if_neg (Ne.symm b)] at d
        exact ⟨⟨⟨a, b⟩, c⟩, d⟩
    by_cases c1 : U u.key ≠ 0
    · have e : sieve M O H (u :: l) k U = sieve M O H l (k + 1) (U.put u.key k) := by
        rw [sieve]; simp only [if_pos c1]
      rw [e]
      exact ⟨h1.cons _, h2, drop (.inl c1), h4⟩
    · by_cases c2 : H u.key = 0
      · have e : sieve M O H (u :: l) k U = sieve M O H l (k + 1) (U.put u.key k) := by
          rw [sieve]; simp only [if_neg c1, if_pos c2]
        rw [e]
        exact ⟨h1.cons _, h2, drop (.inr c2), h4⟩
      · have e : sieve M O H (u :: l) k U = (u :: (sieve M O H l (k + 1) (U.put u.key k)).1,
            if inner M O H u = true then (sieve M O H l (k + 1) (U.put u.key k)).2 + 1
            else (sieve M O H l (k + 1) (U.put u.key k)).2) := by
          rw [sieve]; simp only [if_neg c1, if_neg c2]; rfl
        rw [e]
        refine ⟨h1.cons_cons _, ?_, ?_, ?_⟩
        · rw [List.map_cons, List.nodup_cons]
          refine ⟨?_, h2⟩
          rw [List.mem_map]
          rintro ⟨t, ht, et⟩
          exact ((hU _).1 ((h3 t).1 ht).1.1).2 et
        · intro t
          rw [List.mem_cons, h3, hU, find_cons]
          constructor
          · rintro (rfl | ⟨⟨⟨a, b⟩, c⟩, d⟩)
            · exact ⟨⟨not_not.1 c1, c2⟩, if_pos rfl⟩
            · exact ⟨⟨a, c⟩, by rw [if_neg (Ne.symm b)]; exact d⟩
          · rintro ⟨⟨a, c⟩, d⟩
            by_cases b : u.key = t.key
            · rw [if_pos b] at d
              exact .inl (Option.some.inj d).symm
            · rw [if_neg b] at d
              exact .inr ⟨⟨⟨a, Ne.symm b⟩, c⟩, d⟩
        · rw [List.countP_cons, ← h4]
          by_cases hi : inner M O H u = true
          · rw [if_pos hi, if_pos hi]
          · rw [if_neg hi, if_neg hi]; rfl

theorem find_of_mem {l : List Tri} {f : Multiset Nat} (h : f ∈ l.map Tri.key) :
    ∃ t ∈ l, t.key = f ∧ l.find? (fun u => decide (u.key = t.key)) = some t := by
  have : (l.find? fun u => decide (u.key = f)).isSome := by
    rw [List.find?_isSome]
    obtain ⟨t, ht, e⟩ := List.mem_map.1 h
    exact ⟨t, ht, by simpa using e⟩
  obtain ⟨t, ht⟩ := Option.isSome_iff_exists.1 this
  have e := List.find?_some ht
  have e : t.key = f := by simpa using e
  exact ⟨t, List.mem_of_find?_eq_some ht, e, by rw [e]; exact ht⟩

/-! ### Faces that are counted -/

theorem code4 {q : Nat × Nat} (h : q.2 < 4) : (4 * q.1 + q.2) / 4 = q.1 := by omega
theorem code5 {q : Nat × Nat} (h : q.2 < 2) : ((5 * q.1 + q.2 : Nat) / 5 : Int) = q.1 := by omega

/-- The faces that `MMG5_bdryTria` looks for in the classical mode are those that are counted. -/
theorem tadd_eq {M : Mesh} {O : Opt} (hw : Wf M) (hc : O.opnbdy = false ∨ M.hasXt = false) {q : Nat × Nat} (hq : q ∈ M.tfaces) :
    tadd M O q = tcount M q := by
  have h1 : (!O.opnbdy || !M.hasXt) = true := by rcases hc with h | h <;> simp [h]
  have h2 : M.tadj q.1 q.2 / 4 = 0 ↔ M.tadj q.1 q.2 = 0 := by
    rcases hw.tadj q hq with h | ⟨q', hq', _, h, _⟩
    · simp [h]
    · have := (mem_tfaces.1 hq').1.1
      omega
  unfold tadd tcount
  rw [if_pos h1]
  by_cases h3 : M.tadj q.1 q.2 = 0
  · simp [h3]
  · simp only [h2, h3, decide_false, Bool.false_or, gt_iff_lt]
    rw [← decide_not]
    simp only [not_le]

theorem tcount_uniq {M : Mesh} (hw : Wf M) {q q' : Nat × Nat} (hq : q ∈ M.tfaces) (hq' : q' ∈ M.tfaces)
    (h : tcount M q = true) (h' : tcount M q' = true) (he : fkey (M.tface q) = fkey (M.tface q')) : q = q' := by
  by_contra hne
  have h1 := hw.tall q hq q' hq' hne he
  have h2 := hw.tall q' hq' q hq (Ne.symm hne) he.symm
  have a := mem_tfaces.1 hq
  have b := mem_tfaces.1 hq'
  simp only [tcount, Bool.or_eq_true, decide_eq_true_eq, h1, code4 b.2.2] at h
  simp only [tcount, Bool.or_eq_true, decide_eq_true_eq, h2, code4 a.2.2] at h'
  omega

theorem onT_iff {M : Mesh} (hw : Wf M) (f : Multiset Nat) :
    OnT M f ↔ ∃ q ∈ M.tfaces, tcount M q = true ∧ fkey (M.tface q) = f := by
  constructor
  · rintro ⟨q, hq, hf, h⟩
    rcases hw.tadj q hq with h0 | ⟨q', hq', hne, h1, h2⟩
    · exact ⟨q, hq, by simp [tcount, h0], hf⟩
    · have b := mem_tfaces.1 hq'
      have a := mem_tfaces.1 hq
      rw [h1, code4 b.2.2] at h
      rcases h with h | h
      · omega
      · rcases lt_or_gt_of_ne h with h | h
        · refine ⟨q', hq', ?_, h2.trans hf⟩
          have := hw.tall q' hq' q hq hne h2
          simp only [tcount, this, code4 a.2.2]
          simp [h]
        · refine ⟨q, hq, ?_, hf⟩
          simp only [tcount, h1, code4 b.2.2]
          simp [h]
  · rintro ⟨q, hq, h, hf⟩
    refine ⟨q, hq, hf, ?_⟩
    simp only [tcount, Bool.or_eq_true, decide_eq_true_eq] at h
    rcases h with h | h
    · exact .inl h
    · exact .inr (by omega)

/-! ### Faces of prisms -/

theorem mark_padj (M : Mesh) {q : Nat × Nat} (hq : q ∈ M.pfaces) :
    (mark M).padj q.1 q.2 = if M.padj q.1 q.2 = 0 ∧ alone M (fkey (M.pface q)) ≠ 0 then
      -(alone M (fkey (M.pface q)) : Int) else M.padj q.1 q.2 := by
  show (if (q.1, q.2) ∈ M.pfaces ∧ M.padj q.1 q.2 = 0 ∧ alone M (fkey (M.pface (q.1, q.2))) ≠ 0 then
    -(alone M (fkey (M.pface (q.1, q.2))) : Int) else M.padj q.1 q.2) = _
  simp only [hq, true_and]

theorem padj_nonneg {M : Mesh} (hw : Wf M) {q : Nat × Nat} (hq : q ∈ M.pfaces) : 0 ≤ M.padj q.1 q.2 := by
  rcases hw.padj q hq with h | ⟨q', _, _, h, _⟩ <;> omega

theorem shared_iff {M : Mesh} (hw : Wf M) {q : Nat × Nat} (hq : q ∈ M.pfaces) :
    Shared M (fkey (M.pface q)) ↔ M.padj q.1 q.2 = 0 ∧ alone M (fkey (M.pface q)) ≠ 0 := by
  rw [alone_ne]
  constructor
  · rintro ⟨⟨q', hq', h⟩, -⟩
    obtain ⟨h1, h2⟩ := hw.mixed q' hq' q hq h
    exact ⟨h2, q', hq', h1, h⟩
  · rintro ⟨-, q', hq', -, h⟩
    exact ⟨⟨q', hq', h⟩, q, hq, rfl⟩

/-- The marked faces are those of a tetrahedron and a prism. -/
theorem marked_iff {M : Mesh} (hw : Wf M) (f : Multiset Nat) : f ∈ marked (mark M) (mark M).pfaces ↔ Shared M f := by
  have h0 : ∀ q ∈ M.pfaces, (mark M).padj q.1 q.2 < 0 ↔ Shared M (fkey (M.pface q)) := by
    intro q hq
    rw [shared_iff hw hq, mark_padj M hq]
    have := padj_nonneg hw hq
    by_cases h : M.padj q.1 q.2 = 0 ∧ alone M (fkey (M.pface q)) ≠ 0
    · rw [if_pos h]; simp only [h, iff_true]; have := h.2; simp; omega
    · rw [if_neg h]; simp only [h, iff_false]; omega
  simp only [marked, List.mem_map, List.mem_filter, decide_eq_true_eq]
  constructor
  · rintro ⟨q, ⟨hq, h⟩, rfl⟩
    exact (h0 q hq).1 h
  · intro h
    obtain ⟨-, q, hq, rfl⟩ := id h
    exact ⟨q, ⟨hq, (h0 q hq).2 h⟩, rfl⟩

theorem padd_iff {M : Mesh} (hw : Wf M) {q : Nat × Nat} (hq : q ∈ M.pfaces) :
    padd (mark M) q = true ↔ pcount M q = true ∧ ¬ Shared M (fkey (M.pface q)) := by
  rw [shared_iff hw hq]
  have hn := padj_nonneg hw hq
  unfold padd
  rw [mark_padj M hq]
  by_cases h : M.padj q.1 q.2 = 0 ∧ alone M (fkey (M.pface q)) ≠ 0
  · have : -(alone M (fkey (M.pface q)) : Int) < 0 := by have := h.2; omega
    rw [if_pos h]
    simp [h, this]
  · rw [if_neg h]
    simp only [h, not_false_eq_true, and_true, pcount]
    have h5 : M.padj q.1 q.2 / 5 ≠ 0 ↔ M.padj q.1 q.2 ≠ 0 := by
      rcases hw.padj q hq with h | ⟨q', hq', _, h, _⟩
      · simp [h]
      · have := (mem_pfaces.1 hq').1.1
        omega
    have hneg : ¬ M.padj q.1 q.2 < 0 := by omega
    simp only [hneg, decide_false, Bool.not_false, Bool.true_and, Bool.not_eq_true', decide_eq_false_iff_not, h5,
      Bool.or_eq_true, decide_eq_true_eq]
    show ¬ (M.padj q.1 q.2 ≠ 0 ∧ M.pref q.1 ≤ M.pref (M.padj q.1 q.2 / 5).toNat) ↔ _
    by_cases h6 : M.padj q.1 q.2 = 0
    · simp [h6]
    · simp [h6]

theorem pcode {M : Mesh} (hw : Wf M) {q q' : Nat × Nat} (hq : q ∈ M.pfaces) (hq' : q' ∈ M.pfaces) (hne : q ≠ q')
    (he : fkey (M.pface q) = fkey (M.pface q')) : (M.padj q.1 q.2 / 5).toNat = q'.1 ∧ M.padj q.1 q.2 ≠ 0 := by
  have h1 := hw.pall q hq q' hq' hne he
  have b := mem_pfaces.1 hq'
  omega

theorem pcount_uniq {M : Mesh} (hw : Wf M) {q q' : Nat × Nat} (hq : q ∈ M.pfaces) (hq' : q' ∈ M.pfaces)
    (h : pcount M q = true) (h' : pcount M q' = true) (he : fkey (M.pface q) = fkey (M.pface q')) : q = q' := by
  by_contra hne
  obtain ⟨h1, h2⟩ := pcode hw hq hq' hne he
  obtain ⟨h3, h4⟩ := pcode hw hq' hq (Ne.symm hne) he.symm
  simp only [pcount, Bool.or_eq_true, decide_eq_true_eq, Bool.and_eq_true, h1, h2, false_or] at h
  simp only [pcount, Bool.or_eq_true, decide_eq_true_eq, Bool.and_eq_true, h3, h4, false_or] at h'
  have := h.2
  have := h'.2
  omega

/-- The faces to be found in the classical mode. -/
theorem own_iff {M : Mesh} {O : Opt} (hw : Wf M) (hc : O.opnbdy = false ∨ M.hasXt = false) (f : Multiset Nat) :
    f ∈ ownT M O ++ ownP (mark M) ↔ Bd M f := by
  have hT : f ∈ ownT M O ↔ OnT M f := by
    rw [onT_iff hw]
    simp only [ownT, List.mem_map, List.mem_filter]
    constructor
    · rintro ⟨q, ⟨hq, h⟩, hf⟩
      exact ⟨q, hq, by rw [← tadd_eq hw hc hq]; exact h, hf⟩
    · rintro ⟨q, hq, h, hf⟩
      exact ⟨q, ⟨hq, by rw [tadd_eq hw hc hq]; exact h⟩, hf⟩
  have hP : f ∈ ownP (mark M) ↔ ∃ q ∈ M.pfaces, pcount M q = true ∧ ¬ Shared M (fkey (M.pface q)) ∧ fkey (M.pface q) = f := by
    simp only [ownP, List.mem_map, List.mem_filter]
    constructor
    · rintro ⟨q, ⟨hq, h⟩, hf⟩
      obtain ⟨h1, h2⟩ := (padd_iff hw hq).1 h
      exact ⟨q, hq, h1, h2, hf⟩
    · rintro ⟨q, hq, h1, h2, hf⟩
      exact ⟨q, ⟨hq, (padd_iff hw hq).2 ⟨h1, h2⟩⟩, hf⟩
  rw [List.mem_append, hT, hP]
  constructor
  · rintro (h | ⟨q, hq, h1, -, hf⟩)
    · exact .inl h
    · refine .inr ⟨q, hq, hf, ?_⟩
      simp only [pcount, Bool.or_eq_true, decide_eq_true_eq, Bool.and_eq_true] at h1
      rcases h1 with h1 | h1
      · exact .inl h1
      · exact .inr (by have := h1.2; omega)
  · rintro (h | ⟨q, hq, hf, h⟩)
    · exact .inl h
    · by_cases hs : Shared M f
      · left
        obtain ⟨⟨q', hq', h1⟩, -⟩ := hs
        exact ⟨q', hq', h1, .inl (hw.mixed q' hq' q hq (h1.trans hf.symm)).1⟩
      · right
        rcases hw.padj q hq with h0 | ⟨q', hq', hne, h1, h2⟩
        · exact ⟨q, hq, by simp [pcount, h0], by rw [hf]; exact hs, hf⟩
        · obtain ⟨c1, c2⟩ := pcode hw hq hq' (Ne.symm hne) h2.symm
          obtain ⟨c3, c4⟩ := pcode hw hq' hq hne h2
          rw [c1] at h
          rcases lt_or_gt_of_ne (h.resolve_left c2) with h | h
          · refine ⟨q', hq', ?_, by rw [h2, hf]; exact hs, h2.trans hf⟩
            have := padj_nonneg hw hq'
            simp only [pcount, c3, Bool.or_eq_true, Bool.and_eq_true, decide_eq_true_eq, Bool.not_eq_true', decide_eq_false_iff_not]
            exact .inr ⟨by omega, h⟩
          · refine ⟨q, hq, ?_, by rw [hf]; exact hs, hf⟩
            have := padj_nonneg hw hq
            simp only [pcount, c1, Bool.or_eq_true, Bool.and_eq_true, decide_eq_true_eq, Bool.not_eq_true', decide_eq_false_iff_not]
            exact .inr ⟨by omega, h⟩

theorem ownP_nodup {M : Mesh} (hw : Wf M) : (ownP (mark M)).Nodup := by
  refine keys_nodup (pfaces_nodup M) _ _ ?_
  intro q hq q' hq' h h' he
  exact pcount_uniq hw hq hq' ((padd_iff hw hq).1 h).1 ((padd_iff hw hq').1 h').1 he

/-- A face of a tetrahedron is not one of the faces of prisms to be found. -/
theorem ownP_not {M : Mesh} (hw : Wf M) {q : Nat × Nat} (hq : q ∈ M.tfaces) : fkey (M.tface q) ∉ ownP (mark M) := by
  intro h
  simp only [ownP, List.mem_map, List.mem_filter] at h
  obtain ⟨q', ⟨hq', h1⟩, h2⟩ := h
  have h3 : fkey (M.pface q') = fkey (M.tface q) := h2
  exact ((padd_iff hw hq').1 h1).2 (by rw [h3]; exact ⟨⟨q, hq, rfl⟩, q', hq', h3⟩)

theorem marked_own {M : Mesh} {O : Opt} (hw : Wf M) (f : Multiset Nat) (h : f ∈ marked (mark M) (mark M).pfaces) : f ∈ ownT M O := by
  obtain ⟨⟨q, hq, hf⟩, q', hq', hf'⟩ := (marked_iff hw f).1 h
  refine List.mem_map.2 ⟨q, List.mem_filter.2 ⟨hq, ?_⟩, hf⟩
  have := (hw.mixed q hq q' hq' (hf.trans hf'.symm)).1
  simp [tadd, this]

theorem count_split {l : List (Nat × Nat)} {a b c : Nat × Nat → Bool} (h1 : ∀ q ∈ l, b q = true → a q = true)
    (h2 : ∀ q ∈ l, c q = true ↔ a q = true ∧ ¬ b q = true) : l.countP a = l.countP b + l.countP c := by
  induction l with
  | nil => rfl
  | cons q l ih =>
    have := ih (fun q hq => h1 q (List.mem_cons_of_mem _ hq)) (fun q hq => h2 q (List.mem_cons_of_mem _ hq))
    have e1 := h1 q (List.mem_cons_self ..)
    have e2 := h2 q (List.mem_cons_self ..)
    simp only [List.countP_cons]
    by_cases hb : b q = true
    · have := e1 hb
      have hc : ¬ c q = true := fun h => (e2.1 h).2 hb
      rw [if_pos hb, if_pos this, if_neg hc]; omega
    · by_cases ha : a q = true
      · rw [if_neg hb, if_pos ha, if_pos (e2.2 ⟨ha, hb⟩)]; omega
      · rw [if_neg hb, if_neg ha, if_neg fun h => ha (e2.1 h).1]; omega

/-- The count is the number of the boundary faces. -/
theorem ntmesh_eq {M : Mesh} (hw : Wf M) :
    ntmesh M = M.tfaces.countP (tcount M) + (ownP (mark M)).length := by
  have h := count_split (l := M.pfaces) (a := pcount M)
    (b := fun q => decide (M.padj q.1 q.2 = 0) && decide (alone M (fkey (M.pface q)) ≠ 0)) (c := padd (mark M))
    (by
      intro q hq h
      simp only [Bool.and_eq_true, decide_eq_true_eq] at h
      simp [pcount, h.1])
    (by
      intro q hq
      rw [padd_iff hw hq, shared_iff hw hq]
      simp only [Bool.and_eq_true, decide_eq_true_eq])
  have e : (ownP (mark M)).length = M.pfaces.countP (padd (mark M)) := by
    rw [ownP, List.length_map, List.countP_eq_length_filter]; rfl
  rw [ntmesh, e, h]
  omega

/-! ### The table of the boundary faces -/

theorem fold_congr {st st' : Tab → Nat × Nat → Tab} {l : List (Nat × Nat)} (h : ∀ T, ∀ q ∈ l, st T q = st' T q) :
    ∀ T, l.foldl st T = l.foldl st' T := by
  induction l with
  | nil => intro T; rfl
  | cons q l ih =>
    intro T
    rw [List.foldl_cons, List.foldl_cons, h T q (List.mem_cons_self ..), ih fun T q hq => h T q (List.mem_cons_of_mem _ hq)]

/-- Classical mode: the table has the boundary faces. -/
theorem hashBdy_ne {M : Mesh} {O : Opt} (hw : Wf M) (hO : O.opnbdy = false) (f : Multiset Nat) :
    hashBdy (mark M) O f ≠ 0 ↔ Bd M f := by
  have e1 : ∀ T : Tab, ∀ q ∈ M.tfaces, (if O.opnbdy then T.put (fkey (M.tface q)) (4 * q.1 + q.2)
    else
      let T : Tab := if M.tadj q.1 q.2 = 0 then T.put (fkey (M.tface q)) (4 * q.1 + q.2) else T
      if M.tref q.1 > M.tref (M.tadj q.1 q.2 / 4) then T.put (fkey (M.tface q)) (4 * q.1 + q.2) else T) =
      if tcount M q = true then T.put (fkey (M.tface q)) (4 * q.1 + q.2) else T := by
    intro T q hq
    have hc : 4 * q.1 + q.2 ≠ 0 := by have := (mem_tfaces.1 hq).1.1; omega
    simp only [hO, Bool.false_eq_true, if_false, tcount, Bool.or_eq_true, decide_eq_true_eq]
    by_cases a : M.tadj q.1 q.2 = 0
    · simp only [if_pos a, a, true_or, if_true]
      split_ifs
      · exact put_twice _ _ _ hc
      · rfl
    · simp only [if_neg a, a, false_or, if_false]
  have e2 : ∀ T : Tab, ∀ q ∈ M.pfaces,
      (if (mark M).padj q.1 q.2 = 0 then
        let T : Tab := T.put (fkey (M.pface q)) (5 * q.1 + q.2)
        if M.pref q.1 > M.pref 0 then T.put (fkey (M.pface q)) (5 * q.1 + q.2) else T
      else if (mark M).padj q.1 q.2 < 0 then T
      else if M.pref q.1 > M.pref ((mark M).padj q.1 q.2 / 5).toNat then T.put (fkey (M.pface q)) (5 * q.1 + q.2) else T) =
      if padd (mark M) q = true then T.put (fkey (M.pface q)) (5 * q.1 + q.2) else T := by
    intro T q hq
    have hc : 5 * q.1 + q.2 ≠ 0 := by have := (mem_pfaces.1 hq).1.1; omega
    have h5 : ¬ (mark M).padj q.1 q.2 < 0 → ((mark M).padj q.1 q.2 / 5 ≠ 0 ↔ (mark M).padj q.1 q.2 ≠ 0) := by
      intro hh
      rw [mark_padj M hq] at hh ⊢
      by_cases h : M.padj q.1 q.2 = 0 ∧ alone M (fkey (M.pface q)) ≠ 0
      · rw [if_pos h] at hh; have := h.2; omega
      · rw [if_neg h]
        rcases hw.padj q hq with h | ⟨q', hq', _, h, _⟩
        · simp [h]
        · have := (mem_pfaces.1 hq').1.1
          omega
    by_cases a : (mark M).padj q.1 q.2 = 0
    · have : padd (mark M) q = true := by simp [padd, a]
      rw [if_pos a, if_pos this]
      split_ifs
      · exact put_twice _ _ _ hc
      · rfl
    · rw [if_neg a]
      by_cases b : (mark M).padj q.1 q.2 < 0
      · have : ¬ padd (mark M) q = true := by simp [padd, b]
        rw [if_pos b, if_neg this]
      · rw [if_neg b]
        have : padd (mark M) q = true ↔ M.pref q.1 > M.pref ((mark M).padj q.1 q.2 / 5).toNat := by
          simp only [padd, b, decide_false, Bool.not_false, Bool.true_and, h5 b, Bool.not_eq_true',
            decide_eq_false_iff_not, ne_eq, a, not_false_eq_true, true_and, not_le]
          rfl
        by_cases c : M.pref q.1 > M.pref ((mark M).padj q.1 q.2 / 5).toNat
        · rw [if_pos c, if_pos (this.2 c)]
        · rw [if_neg c, if_neg fun h => c (this.1 h)]
  have f1 := fun T f => (fold_put (fun T q => if tcount M q = true then T.put (fkey (M.tface q)) (4 * q.1 + q.2) else T)
    (fun q => tcount M q = true) (fun q => fkey (M.tface q)) (fun q => 4 * q.1 + q.2) M.tfaces
    (fun q hq => by have := (mem_tfaces.1 hq).1.1; omega) (fun q _ T f => cond_step T _ _ f _) T f).1
  have f2 := fun T f => (fold_put (fun T q => if padd (mark M) q = true then T.put (fkey (M.pface q)) (5 * q.1 + q.2) else T)
    (fun q => padd (mark M) q = true) (fun q => fkey (M.pface q)) (fun q => 5 * q.1 + q.2) M.pfaces
    (fun q hq => by have := (mem_pfaces.1 hq).1.1; omega) (fun q _ T f => cond_step T _ _ f _) T f).1
  have e : hashBdy (mark M) O = M.pfaces.foldl
      (fun (T : Tab) q => if padd (mark M) q = true then T.put (fkey (M.pface q)) (5 * q.1 + q.2) else T)
      (M.tfaces.foldl (fun (T : Tab) q => if tcount M q = true then T.put (fkey (M.tface q)) (4 * q.1 + q.2) else T) fun _ => 0) := by
    rw [← fold_congr e2, ← fold_congr e1]
    rfl
  rw [e, f2, f1, ← own_iff (O := O) hw (.inl hO), List.mem_append]
  simp only [ne_eq, not_true_eq_false, false_or, ownT, ownP, List.mem_map, List.mem_filter]
  constructor
  · rintro (⟨q, hq, h1, h2⟩ | ⟨q, hq, h1, h2⟩)
    · exact .inl ⟨q, ⟨hq, by rw [tadd_eq hw (.inl hO) hq]; exact h1⟩, h2⟩
    · exact .inr ⟨q, ⟨hq, h1⟩, h2⟩
  · rintro (⟨q, ⟨hq, h1⟩, h2⟩ | ⟨q, ⟨hq, h1⟩, h2⟩)
    · exact .inl ⟨q, hq, by rw [← tadd_eq hw (.inl hO) hq]; exact h1, h2⟩
    · exact .inr ⟨q, hq, h1, h2⟩

/-- Internal triangles kept, no prism: the table has all the faces, with the code of a tetrahedron. -/
theorem hashBdy_open {M : Mesh} {O : Opt} (hO : O.opnbdy = true) (hp : M.np = 0) (f : Multiset Nat) :
    (hashBdy (mark M) O f ≠ 0 ↔ ∃ q ∈ M.tfaces, fkey (M.tface q) = f) ∧
      (hashBdy (mark M) O f ≠ 0 → ∃ q ∈ M.tfaces, fkey (M.tface q) = f ∧ hashBdy (mark M) O f = 4 * q.1 + q.2) := by
  have e1 : ∀ T : Tab, ∀ q ∈ M.tfaces, (if O.opnbdy then T.put (fkey (M.tface q)) (4 * q.1 + q.2)
    else
      let T : Tab := if M.tadj q.1 q.2 = 0 then T.put (fkey (M.tface q)) (4 * q.1 + q.2) else T
      if M.tref q.1 > M.tref (M.tadj q.1 q.2 / 4) then T.put (fkey (M.tface q)) (4 * q.1 + q.2) else T) =
      if True then T.put (fkey (M.tface q)) (4 * q.1 + q.2) else T := by
    intro T q _
    rw [if_pos hO, if_pos trivial]
  have e : hashBdy (mark M) O =
      M.tfaces.foldl (fun (T : Tab) q => if True then T.put (fkey (M.tface q)) (4 * q.1 + q.2) else T) fun _ => 0 := by
    rw [← fold_congr e1]
    unfold hashBdy
    rw [show (mark M).pfaces = [] from pfaces_nil hp]
    rfl
  have f1 := fold_put (fun T q => if True then T.put (fkey (M.tface q)) (4 * q.1 + q.2) else T)
    (fun _ => True) (fun q => fkey (M.tface q)) (fun q => 4 * q.1 + q.2) M.tfaces
    (fun q hq => by have := (mem_tfaces.1 hq).1.1; omega) (fun q _ T f => cond_step T _ _ f _) (fun _ => 0) f
  rw [e]
  refine ⟨by rw [f1.1]; simp, fun h => ?_⟩
  obtain ⟨q, hq, -, h1, h2⟩ := f1.2.1 rfl h
  exact ⟨q, hq, h1, h2⟩

/-! ### The analysis -/

/-- Assembling the parts: `K` are the triangles of the user that are kept. -/
theorem assemble {M : Mesh} {O : Opt} (hw : Wf M) (K : List Tri) (n : Nat) (want : Multiset Nat → Prop)
    (hT : (ownT M O).Nodup) (hsub : K.Sublist M.tri) (hK : (K.map Tri.key).Nodup)
    (hmem : ∀ t, t ∈ K ↔ want t.key ∧ M.tri.find? (fun u => decide (u.key = t.key)) = some t)
    (hwant : ∀ f, want f ↔ f ∈ K.map Tri.key ∨ f ∈ ownT M O ++ ownP (mark M))
    (hn : n = K.length → ∀ f ∈ ownT M O ++ ownP (mark M), f ∈ K.map Tri.key) :
    Found M O want (bdryTria { mark M with tri := K } O n).tri := by
  have hown : (ownT M O ++ ownP (mark M)).Nodup := by
    rw [List.nodup_append]
    refine ⟨hT, ownP_nodup hw, ?_⟩
    intro a ha b hb e
    subst e
    obtain ⟨q, hq, rfl⟩ := List.mem_map.1 ha
    exact ownP_not hw (List.mem_filter.1 hq).1 hb
  have hmk := fun f h => marked_own (O := O) hw f h
  obtain ⟨h1, h2⟩ := bdryTria_found { mark M with tri := K } O n hK hown hmk hn
  refine ⟨h1, fun f => (h2 f).trans (hwant f).symm, K, newT { mark M with tri := K } O ++ newP { mark M with tri := K } O, ?_, hsub, hmem, ?_⟩
  · rw [bdryTria_tri { mark M with tri := K } O n hK hown hmk hn, ← List.append_assoc]
    refine List.rel_append ?_ ?_
    · rw [List.forall₂_map_right_iff, List.forall₂_same]
      intro t _
      have := marked_iff hw t.key
      refine ⟨fun h => ?_, fun h => ?_⟩
      · exact if_pos (this.2 h)
      · exact if_neg fun h' => h (this.1 h')
    · rw [List.forall₂_same]
      intro t ht
      have h3 := (newP_keys { mark M with tri := K } O t.key).1 (List.mem_map_of_mem ht)
      refine ⟨fun h => ?_, fun _ => rfl⟩
      obtain ⟨⟨q, hq, e⟩, -⟩ := h
      exact absurd h3.1 (by rw [← e]; exact ownP_not hw hq)
  · intro t ht
    have hnot : t.key ∉ K.map Tri.key ∧ t.key ∈ ownT M O ++ ownP (mark M) := by
      rcases List.mem_append.1 ht with h | h
      · have := (newT_keys { mark M with tri := K } O t.key).1 (List.mem_map_of_mem h)
        exact ⟨this.2, List.mem_append_left _ this.1⟩
      · have := (newP_keys { mark M with tri := K } O t.key).1 (List.mem_map_of_mem h)
        exact ⟨this.2, List.mem_append_right _ this.1⟩
    constructor
    · intro h
      obtain ⟨u, _, e, hu⟩ := find_of_mem h
      have : u ∈ K := (hmem u).2 ⟨(hwant _).2 (.inr (by rw [e]; exact hnot.2)), hu⟩
      exact hnot.1 (by rw [← e]; exact List.mem_map_of_mem this)
    · rcases List.mem_append.1 ht with h | h
      · left
        obtain ⟨q, hq, rfl⟩ := List.mem_map.1 h
        have hq' := List.mem_filter.1 hq
        exact ⟨q, hq'.1, (Bool.and_eq_true _ _ ▸ hq'.2 : _ ∧ _).1, rfl⟩
      · right
        obtain ⟨q, hq, rfl⟩ := List.mem_map.1 h
        have hq' := List.mem_filter.1 hq
        have hqp : q ∈ M.pfaces := hq'.1
        have hp : padd (mark M) q = true := (Bool.and_eq_true _ _ ▸ hq'.2 : _ ∧ _).1
        have hs := ((padd_iff hw hqp).1 hp).2
        rw [shared_iff hw hqp] at hs
        have : (mark M).padj q.1 q.2 = M.padj q.1 q.2 := by rw [mark_padj M hqp, if_neg hs]
        refine ⟨q, hqp, ?_⟩
        show (⟨_, _, _, if (mark M).padj q.1 q.2 / 5 ≠ 0 ∧ O.iso then O.isoref else 0, _, _⟩ : Tri) = _
        rw [this]; rfl

/-- Both branches give the triangles of `MMG5_bdryTria`. -/
theorem chk_tri (M : Mesh) (O : Opt) :
    (chkBdryTria M O).tri = (bdryTria { mark M with
      tri := (if M.tri = [] then (([], 0) : List Tri × Nat) else sieve (mark M) O (hashBdy (mark M) O) M.tri 1 fun _ => 0).1 } O
      (ntmesh M + (ntpres M O + (if M.tri = [] then (([], 0) : List Tri × Nat) else
        sieve (mark M) O (hashBdy (mark M) O) M.tri 1 fun _ => 0).2))).tri := by
  set r := if M.tri = [] then (([], 0) : List Tri × Nat) else sieve (mark M) O (hashBdy (mark M) O) M.tri 1 fun _ => 0 with hr
  show (if r.1.length = ntmesh M + (ntpres M O + r.2) ∧ M.np = 0 then
    ({ mark M with tri := r.1, bdy := touch r.1 M.bdy } : Mesh) else
    bdryTria { mark M with tri := r.1 } O (ntmesh M + (ntpres M O + r.2))).tri = _
  by_cases h : r.1.length = ntmesh M + (ntpres M O + r.2) ∧ M.np = 0
  · rw [if_pos h]
    have hpf : ({ mark M with tri := r.1 } : Mesh).pfaces = [] := pfaces_nil h.2
    simp only [bdryTria, hpf, addPrism, ← h.1, ne_eq, not_true_eq_false, if_false]
  · rw [if_neg h]

/-- The sieve on the triangles of the user, also when there are none. -/
theorem sieve_user (M : Mesh) (O : Opt) :
    (if M.tri = [] then (([], 0) : List Tri × Nat) else sieve (mark M) O (hashBdy (mark M) O) M.tri 1 fun _ => 0) =
      sieve (mark M) O (hashBdy (mark M) O) M.tri 1 fun _ => 0 := by
  by_cases h : M.tri = []
  · rw [if_pos h, h]; rfl
  · rw [if_neg h]

theorem ownT_nodup {M : Mesh} {O : Opt} (hw : Wf M) (hc : O.opnbdy = false ∨ M.hasXt = false) : (ownT M O).Nodup := by
  refine keys_nodup (tfaces_nodup M) _ _ ?_
  intro q hq q' hq' h h' he
  rw [tadd_eq hw hc hq] at h
  rw [tadd_eq hw hc hq'] at h'
  exact tcount_uniq hw hq hq' h h' he

theorem ntmesh_own {M : Mesh} {O : Opt} (hw : Wf M) (hc : O.opnbdy = false ∨ M.hasXt = false) :
    ntmesh M = (ownT M O ++ ownP (mark M)).length := by
  rw [ntmesh_eq hw, List.length_append, ownT, List.length_map, ← List.countP_eq_length_filter]
  congr 1
  refine List.countP_congr ?_
  intro q hq
  rw [tadd_eq hw hc hq]

/-- **C78** : in a mesh of tetrahedra and prisms, after the identification of the surface the triangles are exactly the boundary
faces, once each; the triangles of the user that are boundary faces are kept first with their data, then come new ones with the vertices of a
face of an element. -/
theorem C78_triangles {M : Mesh} {O : Opt} (hw : Wf M) (hO : O.opnbdy = false) :
    Found M O (Bd M) (chkBdryTria M O).tri := by
  rw [chk_tri, sieve_user]
  obtain ⟨h1, h2, h3, h4⟩ := sieve_spec (mark M) O (hashBdy (mark M) O) M.tri 1 (fun _ => 0) one_ne_zero
  have hc : O.opnbdy = false ∨ M.hasXt = false := .inl hO
  have h0 : (sieve (mark M) O (hashBdy (mark M) O) M.tri 1 fun _ => 0).2 = 0 := by
    rw [h4, List.countP_eq_zero]
    intro t _
    simp [inner, hO]
  have hsub : ∀ f ∈ (sieve (mark M) O (hashBdy (mark M) O) M.tri 1 fun _ => 0).1.map Tri.key,
      f ∈ ownT M O ++ ownP (mark M) := by
    intro f hf
    obtain ⟨t, ht, rfl⟩ := List.mem_map.1 hf
    exact (own_iff hw hc _).2 ((hashBdy_ne hw hO _).1 ((h3 t).1 ht).1.2)
  refine assemble hw _ _ _ (ownT_nodup hw hc) h1 h2 ?_ ?_ ?_
  · intro t
    rw [h3, ← hashBdy_ne hw hO]
    simp
  · intro f
    rw [← own_iff (O := O) hw hc]
    exact ⟨fun h => .inr h, fun h => h.elim (hsub f) id⟩
  · intro hl f hf
    refine pigeon h2 hsub ?_ f hf
    rw [← ntmesh_own hw hc, List.length_map, ← hl, h0]
    omega

/-- **C78** (internal triangles kept) : the triangles are the boundary faces and the faces of tetrahedra given by the user. -/
theorem C78_open {M : Mesh} {O : Opt} (hw : Wf M) (hO : O.opnbdy = true) (hx : M.hasXt = false) (hp : M.np = 0) :
    Found M O (fun f => Bd M f ∨ (f ∈ M.tri.map Tri.key ∧ ∃ q ∈ M.tfaces, fkey (M.tface q) = f)) (chkBdryTria M O).tri := by
  rw [chk_tri, sieve_user]
  obtain ⟨h1, h2, h3, h4⟩ := sieve_spec (mark M) O (hashBdy (mark M) O) M.tri 1 (fun _ => 0) one_ne_zero
  have hc : O.opnbdy = false ∨ M.hasXt = false := .inr hx
  have hbd : ∀ f, Bd M f → ∃ q ∈ M.tfaces, fkey (M.tface q) = f := by
    rintro f (⟨q, hq, h, -⟩ | ⟨q, hq, -⟩)
    · exact ⟨q, hq, h⟩
    · rw [pfaces_nil hp] at hq; exact absurd hq List.not_mem_nil
  have hinner : ∀ t, hashBdy (mark M) O t.key ≠ 0 →
      (inner (mark M) O (hashBdy (mark M) O) t = true ↔ ¬ t.key ∈ ownT M O ++ ownP (mark M)) := by
    intro t ht
    rw [own_iff hw hc]
    obtain ⟨q, hq, hf, hcode⟩ := (hashBdy_open hO hp t.key).2 ht
    have hq2 := (mem_tfaces.1 hq).2.2
    have hdiv : hashBdy (mark M) O t.key / 4 = q.1 := by rw [hcode]; exact code4 hq2
    have hmod : hashBdy (mark M) O t.key % 4 = q.2 := by rw [hcode]; omega
    have e : inner (mark M) O (hashBdy (mark M) O) t = true ↔
        M.tadj q.1 q.2 ≠ 0 ∧ M.tref q.1 = M.tref (M.tadj q.1 q.2 / 4) := by
      unfold inner
      rw [hdiv, hmod, hO]
      simp only [Bool.true_and, Bool.and_eq_true, decide_eq_true_eq]
      rfl
    rw [e]
    constructor
    · rintro ⟨a, b⟩ (⟨q', hq', hf', h⟩ | ⟨q', hq', -⟩)
      · by_cases hqq : q' = q
        · subst hqq
          rcases h with h | h
          · exact a h
          · exact h b
        · have t1 := hw.tall q hq q' hq' (Ne.symm hqq) (hf.trans hf'.symm)
          have t2 := hw.tall q' hq' q hq hqq (hf'.trans hf.symm)
          rw [t1, code4 (mem_tfaces.1 hq').2.2] at b
          rw [t2, code4 hq2] at h
          have := (mem_tfaces.1 hq).1.1
          rcases h with h | h
          · omega
          · exact h b.symm
      · rw [pfaces_nil hp] at hq'; exact List.not_mem_nil hq'
    · intro h
      refine ⟨fun h' => h (.inl ⟨q, hq, hf, .inl h'⟩), ?_⟩
      by_contra h'
      exact h (.inl ⟨q, hq, hf, .inr h'⟩)
  set K := (sieve (mark M) O (hashBdy (mark M) O) M.tri 1 fun _ => 0).1 with hKdef
  have hin : ∀ f, f ∈ K.map Tri.key ↔ f ∈ M.tri.map Tri.key ∧ ∃ q ∈ M.tfaces, fkey (M.tface q) = f := by
    intro f
    constructor
    · intro hf
      obtain ⟨t, ht, rfl⟩ := List.mem_map.1 hf
      obtain ⟨⟨_, a⟩, b⟩ := (h3 t).1 ht
      exact ⟨List.mem_map_of_mem (h1.subset ht), (hashBdy_open hO hp _).1.1 a⟩
    · rintro ⟨hf, hq⟩
      obtain ⟨t, _, e, ht⟩ := find_of_mem hf
      rw [← e] at hq ⊢
      exact List.mem_map_of_mem ((h3 t).2 ⟨⟨rfl, (hashBdy_open hO hp _).1.2 hq⟩, ht⟩)
  refine assemble hw _ _ _ (ownT_nodup hw hc) h1 h2 ?_ ?_ ?_
  · intro t
    rw [h3, (hashBdy_open hO hp _).1]
    constructor
    · rintro ⟨⟨_, a⟩, b⟩
      exact ⟨.inr ⟨List.mem_map_of_mem (List.mem_of_find?_eq_some b), a⟩, b⟩
    · rintro ⟨a, b⟩
      refine ⟨⟨rfl, ?_⟩, b⟩
      rcases a with a | a
      · exact hbd _ a
      · exact a.2
  · intro f
    rw [hin, own_iff hw hc]
    exact or_comm
  · intro hl f hf
    -- the triangles that are kept and are boundary faces
    have hb2 : ((K.filter fun t => !inner (mark M) O (hashBdy (mark M) O) t).map Tri.key).Nodup :=
      h2.sublist (List.Sublist.map _ List.filter_sublist)
    have hb3 : ∀ g ∈ (K.filter fun t => !inner (mark M) O (hashBdy (mark M) O) t).map Tri.key,
        g ∈ ownT M O ++ ownP (mark M) := by
      intro g hg
      obtain ⟨t, ht, rfl⟩ := List.mem_map.1 hg
      rw [List.mem_filter] at ht
      by_contra hh
      have := (hinner t ((h3 t).1 ht.1).1.2).2 hh
      simp [this] at ht
    have hb4 := pigeon hb2 hb3 (by
      rw [← ntmesh_own hw hc, List.length_map]
      have e1 := List.length_eq_countP_add_countP (inner (mark M) O (hashBdy (mark M) O)) (l := K)
      rw [h4] at hl
      rw [← List.countP_eq_length_filter]
      have e2 : K.countP (fun t => !inner (mark M) O (hashBdy (mark M) O) t) =
          K.countP (fun a => decide ¬inner (mark M) O (hashBdy (mark M) O) a = true) :=
        List.countP_congr fun t _ => by simp
      rw [e2]
      omega) f hf
    obtain ⟨t, ht, rfl⟩ := List.mem_map.1 hb4
    exact List.mem_map_of_mem (List.mem_filter.1 ht).1

end Mmg.Bdry
