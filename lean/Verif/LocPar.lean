/-
  C101. Local parameters around a vertex or an edge: the strictest apply, where they do, and where not.
-/
import Verif.LocParModel
import Mathlib.Tactic.Common
import Mathlib.Order.MinMax
import Mathlib.Algebra.Order.Ring.Int

namespace Mmg.LocPar

variable {K : Type} [LinearOrder K]

/-! ### Specification -/

/-- The smallest value of `f` on the list. -/
def Least (f : Par K → K) (m : List (Par K)) (x : K) : Prop := (∃ p ∈ m, f p = x) ∧ ∀ p ∈ m, x ≤ f p

/-- The largest. -/
def Most (f : Par K → K) (m : List (Par K)) (x : K) : Prop := (∃ p ∈ m, f p = x) ∧ ∀ p ∈ m, f p ≤ x

/-- The sizes that should be used when the entries `m` apply: the strictest of them, the global ones if there is none. -/
def Strictest (g : Sz K) (m : List (Par K)) (r : Sz K) : Prop :=
  (m = [] ∧ r = g) ∨
    (m ≠ [] ∧ Least (fun p => p.sz.hausd) m r.hausd ∧ Most (fun p => p.sz.hmin) m r.hmin ∧ Least (fun p => p.sz.hmax) m r.hmax)

/-- The same for one size. -/
def Smallest (g : K) (m : List (Par K)) (x : K) : Prop := (m = [] ∧ x = g) ∨ (m ≠ [] ∧ Least (fun p => p.sz.hausd) m x)

/-! ### Facts about the specification -/

theorem least_unique {f : Par K → K} {m m' : List (Par K)} {x y : K} (h : ∀ p, p ∈ m ↔ p ∈ m') (a : Least f m x) (b : Least f m' y) :
    x = y := by
  obtain ⟨⟨p, hp, rfl⟩, a⟩ := a
  obtain ⟨⟨q, hq, rfl⟩, b⟩ := b
  exact le_antisymm (a q ((h q).mpr hq)) (b p ((h p).mp hp))

theorem most_unique {f : Par K → K} {m m' : List (Par K)} {x y : K} (h : ∀ p, p ∈ m ↔ p ∈ m') (a : Most f m x) (b : Most f m' y) :
    x = y := by
  obtain ⟨⟨p, hp, rfl⟩, a⟩ := a
  obtain ⟨⟨q, hq, rfl⟩, b⟩ := b
  exact le_antisymm (b p ((h p).mp hp)) (a q ((h q).mpr hq))

theorem nil_iff {m m' : List (Par K)} (h : ∀ p, p ∈ m ↔ p ∈ m') : m = [] ↔ m' = [] := by
  rw [List.eq_nil_iff_forall_not_mem, List.eq_nil_iff_forall_not_mem]
  exact forall_congr' fun p => not_congr (h p)

theorem strictest_unique {g : Sz K} {m m' : List (Par K)} {r r' : Sz K} (h : ∀ p, p ∈ m ↔ p ∈ m') (a : Strictest g m r)
    (b : Strictest g m' r') : r = r' := by
  rcases a with ⟨e, rfl⟩ | ⟨e, a1, a2, a3⟩
  · rcases b with ⟨_, rfl⟩ | ⟨e', _⟩
    · rfl
    · exact absurd ((nil_iff h).mp e) e'
  · rcases b with ⟨e', _⟩ | ⟨_, b1, b2, b3⟩
    · exact absurd ((nil_iff h).mpr e') e
    · cases r; cases r'
      simp only at a1 a2 a3 b1 b2 b3
      rw [least_unique h a1 b1, most_unique h a2 b2, least_unique h a3 b3]

theorem strictest_congr {g : Sz K} {m m' : List (Par K)} {r : Sz K} (h : ∀ p, p ∈ m ↔ p ∈ m') (a : Strictest g m r) : Strictest g m' r := by
  rcases a with ⟨e, rfl⟩ | ⟨e, ⟨⟨p1, h1, e1⟩, a1⟩, ⟨⟨p2, h2, e2⟩, a2⟩, ⟨⟨p3, h3, e3⟩, a3⟩⟩
  · exact .inl ⟨(nil_iff h).mp e, rfl⟩
  · exact .inr ⟨fun c => e ((nil_iff h).mpr c), ⟨⟨p1, (h p1).mp h1, e1⟩, fun p hp => a1 p ((h p).mpr hp)⟩,
      ⟨⟨p2, (h p2).mp h2, e2⟩, fun p hp => a2 p ((h p).mpr hp)⟩, ⟨⟨p3, (h p3).mp h3, e3⟩, fun p hp => a3 p ((h p).mpr hp)⟩⟩

theorem least_add {f : Par K → K} {m : List (Par K)} {x : K} (p : Par K) (h : Least f m x) : Least f (m ++ [p]) (min x (f p)) := by
  obtain ⟨⟨q, hq, rfl⟩, a⟩ := h
  refine ⟨?_, ?_⟩
  · rcases min_choice (f q) (f p) with e | e
    · exact ⟨q, by simp [hq], e.symm⟩
    · exact ⟨p, by simp, e.symm⟩
  · intro z hz
    rcases List.mem_append.mp hz with hz | hz
    · exact (min_le_left _ _).trans (a z hz)
    · rw [List.mem_singleton.mp hz]; exact min_le_right _ _

theorem most_add {f : Par K → K} {m : List (Par K)} {x : K} (p : Par K) (h : Most f m x) : Most f (m ++ [p]) (max x (f p)) := by
  obtain ⟨⟨q, hq, rfl⟩, a⟩ := h
  refine ⟨?_, ?_⟩
  · rcases max_choice (f q) (f p) with e | e
    · exact ⟨q, by simp [hq], e.symm⟩
    · exact ⟨p, by simp, e.symm⟩
  · intro z hz
    rcases List.mem_append.mp hz with hz | hz
    · exact (a z hz).trans (le_max_left _ _)
    · rw [List.mem_singleton.mp hz]; exact le_max_right _ _

/-! ### The loops -/

/-- The state after the entries `m` have been taken. -/
structure Acc (g : Sz K) (m : List (Par K)) (s : St K) : Prop where
  loc : s.loc = true ↔ m ≠ []
  sz : Strictest g m s.sz

theorem acc_start (g : Sz K) : Acc g [] ⟨false, g⟩ := ⟨by simp, .inl ⟨rfl, rfl⟩⟩

theorem acc_new {g : Sz K} {m : List (Par K)} {s : St K} (h : Acc g m s) (hl : s.loc = false) (p : Par K) :
    Acc g (m ++ [p]) ⟨true, p.sz⟩ := by
  have hm : m = [] := by
    by_contra c
    rw [h.loc.mpr c] at hl; cases hl
  subst hm
  exact ⟨by simp, .inr ⟨by simp, ⟨⟨p, by simp, rfl⟩, by simp⟩, ⟨⟨p, by simp, rfl⟩, by simp⟩, ⟨⟨p, by simp, rfl⟩, by simp⟩⟩⟩

theorem acc_add {g : Sz K} {m : List (Par K)} {s : St K} (h : Acc g m s) (hl : s.loc = true) (p : Par K) :
    Acc g (m ++ [p]) { s with sz := meet s.sz p.sz } := by
  have hm := h.loc.mp hl
  rcases h.sz with ⟨e, _⟩ | ⟨_, a, b, c⟩
  · exact absurd e hm
  · exact ⟨by simp [hl], .inr ⟨by simp, least_add p a, most_add p b, least_add p c⟩⟩

theorem rest_acc (hit : Par K → Bool) (g : Sz K) : ∀ (l m : List (Par K)) (s : St K), Acc g m s → (s.loc = true ∨ l = []) →
    Acc g (m ++ l.filter hit) (rest hit s l) := by
  intro l
  induction l with
  | nil => intro m s h _; simpa [rest] using h
  | cons p l ih =>
    intro m s h hl
    have hl : s.loc = true := by rcases hl with x | x; exact x; cases x
    unfold rest
    by_cases c : hit p = true
    · rw [if_pos c, List.filter_cons_of_pos c]
      have := ih (m ++ [p]) _ (acc_add h hl p) (.inl hl)
      simpa using this
    · rw [if_neg c, List.filter_cons_of_neg c]
      exact ih m s h (.inl hl)

theorem first_rest_acc (hit : Par K → Bool) (g : Sz K) : ∀ (l m : List (Par K)) (s : St K), Acc g m s →
    Acc g (m ++ l.filter hit) (rest hit (first hit s l).1 (first hit s l).2) := by
  intro l
  induction l with
  | nil => intro m s h; simpa [first, rest] using h
  | cons p l ih =>
    intro m s h
    unfold first
    by_cases hl : s.loc = true
    · rw [if_pos hl]
      exact rest_acc hit g (p :: l) m s h (.inl hl)
    · rw [if_neg hl]
      have hl : s.loc = false := by simpa using hl
      by_cases c : hit p = true
      · rw [if_pos c, List.filter_cons_of_pos c]
        have := ih (m ++ [p]) _ (acc_new h hl p)
        simpa using this
      · rw [if_neg c, List.filter_cons_of_neg c]
        exact ih m s h

theorem every_acc (hit : Par K → Bool) (g : Sz K) : ∀ (l m : List (Par K)) (s : St K), Acc g m s →
    Acc g (m ++ l.filter hit) (every hit s l) := by
  intro l
  induction l with
  | nil => intro m s h; simpa [every] using h
  | cons p l ih =>
    intro m s h
    unfold every
    by_cases c : hit p = true
    · rw [if_pos c, List.filter_cons_of_pos c]
      by_cases hl : s.loc = true
      · rw [if_pos hl]
        have := ih (m ++ [p]) _ (acc_add h hl p)
        simpa using this
      · rw [if_neg hl]
        have := ih (m ++ [p]) _ (acc_new h (by simpa using hl) p)
        simpa using this
    · rw [if_neg c, List.filter_cons_of_neg c]
      exact ih m s h

theorem phase_acc (flag : Bool) (hit : Par K → Bool) (g : Sz K) (tab m : List (Par K)) (s : St K) (h : Acc g m s)
    (hf : ∀ p ∈ tab, hit p = true → flag = true) : Acc g (m ++ tab.filter hit) (phase flag hit tab s) := by
  unfold phase
  cases flag with
  | true => exact first_rest_acc hit g tab m s h
  | false =>
    have : tab.filter hit = [] := by
      rw [List.filter_eq_nil_iff]
      intro p hp c
      cases hf p hp c
    rw [this, List.append_nil]
    exact h

/-! ### Three dimensions -/

/-- The entries that apply around a vertex or an edge: those on a tetrahedron with reference in `v` or on a triangle with reference in `f`. -/
def applies (v f : List Int) (p : Par K) : Bool := decide ((p.elt = .tetra ∧ p.ref ∈ v) ∨ (p.elt = .tria ∧ p.ref ∈ f))

/-- The bits of `parTyp` tell which kinds are in the table. -/
structure Flags (fTet fTri : Bool) (tab : List (Par K)) : Prop where
  tet : ∀ p ∈ tab, p.elt = .tetra → fTet = true
  tri : ∀ p ∈ tab, p.elt = .tria → fTri = true

theorem hits_iff (e : Elt) (refs : List Int) (p : Par K) : hits e refs p = true ↔ p.elt = e ∧ p.ref ∈ refs := by
  unfold hits
  rw [Bool.and_eq_true, List.any_eq_true]
  constructor
  · rintro ⟨a, r, hr, b⟩
    have b := of_decide_eq_true b
    exact ⟨of_decide_eq_true a, b ▸ hr⟩
  · rintro ⟨a, b⟩
    exact ⟨decide_eq_true a, p.ref, b, decide_eq_true rfl⟩

/-- C101.  At a regular vertex of the surface the strictest entries of the ball apply, the global sizes if there is none. -/
theorem C101_regular (fTet fTri : Bool) (g : Sz K) (v f : List Int) (tab : List (Par K)) (h : Flags fTet fTri tab) :
    Strictest g (tab.filter (applies v f)) (reg fTet fTri g v f tab) := by
  have a := phase_acc fTet (hits .tetra v) g tab [] ⟨false, g⟩ (acc_start g)
    (fun p hp c => h.tet p hp ((hits_iff _ _ _).mp c).1)
  have b := phase_acc fTri (hits .tria f) g tab _ _ a (fun p hp c => h.tri p hp ((hits_iff _ _ _).mp c).1)
  refine strictest_congr ?_ b.sz
  intro p
  simp only [List.nil_append, List.mem_append, List.mem_filter, hits_iff, applies, decide_eq_true_eq]
  tauto

/-- C101.  Along a ridge, a reference edge or a non-manifold edge the strictest entries of the shell apply. -/
theorem C101_edge (fTet fTri : Bool) (g : Sz K) (v f : List Int) (tab : List (Par K)) (h : Flags fTet fTri tab) :
    Strictest g (tab.filter (applies v f)) (nm fTet fTri g v f tab) := by
  have a : Acc g (tab.filter (hits .tria f)) (if fTri then every (hits .tria f) ⟨false, g⟩ tab else ⟨false, g⟩) := by
    cases fTri with
    | true =>
      have := every_acc (hits .tria f) g tab [] ⟨false, g⟩ (acc_start g)
      simpa using this
    | false =>
      have : tab.filter (hits .tria f) = [] := by
        rw [List.filter_eq_nil_iff]
        intro p hp c
        cases h.tri p hp ((hits_iff _ _ _).mp c).1
      rw [this]
      exact acc_start g
  have b := phase_acc fTet (hits .tetra v) g tab _ _ a (fun p hp c => h.tet p hp ((hits_iff _ _ _).mp c).1)
  refine strictest_congr ?_ b.sz
  intro p
  simp only [List.mem_append, List.mem_filter, hits_iff, applies, decide_eq_true_eq]
  tauto

/-- C101.  The order of the calls that filled the table, and the order of the ball, do not matter. -/
theorem C101_order (fTet fTri fTet' fTri' : Bool) (g : Sz K) (v f v' f' : List Int) (tab tab' : List (Par K)) (h : Flags fTet fTri tab)
    (h' : Flags fTet' fTri' tab') (ht : ∀ p, p ∈ tab ↔ p ∈ tab') (hv : ∀ r, r ∈ v ↔ r ∈ v') (hf : ∀ r, r ∈ f ↔ r ∈ f') :
    reg fTet fTri g v f tab = reg fTet' fTri' g v' f' tab' ∧ reg fTet fTri g v f tab = nm fTet' fTri' g v' f' tab' := by
  have key : ∀ p, p ∈ tab.filter (applies v f) ↔ p ∈ tab'.filter (applies v' f') := by
    intro p
    simp only [List.mem_filter, applies, decide_eq_true_eq, ht, hv, hf]
  exact ⟨strictest_unique key (C101_regular fTet fTri g v f tab h) (C101_regular fTet' fTri' g v' f' tab' h'),
    strictest_unique key (C101_regular fTet fTri g v f tab h) (C101_edge fTet' fTri' g v' f' tab' h')⟩

/-- C101 fails for sizes that do not fit: the smallest size can be above the largest. -/
theorem C101_cross_observed : let r := reg false true (⟨1, 0, 10⟩ : Sz Int) [] [1, 2] [⟨.tria, 1, ⟨1, 1, 2⟩⟩, ⟨.tria, 2, ⟨1, 5, 6⟩⟩]
    r.hmax < r.hmin := by decide

/-! ### Swap of a boundary edge -/

/-- `isloc` and the distance after the entries `m` have been taken. -/
structure HAcc (g : K) (m : List (Par K)) (loc : Bool) (h : K) : Prop where
  loc : loc = true ↔ m ≠ []
  val : Smallest g m h

theorem hacc_new {g : K} {m : List (Par K)} {h : K} (a : HAcc g m false h) (p : Par K) : HAcc g (m ++ [p]) true p.sz.hausd := by
  have hm : m = [] := by
    by_contra c
    cases a.loc.mpr c
  subst hm
  exact ⟨by simp, .inr ⟨by simp, ⟨p, by simp, rfl⟩, by simp⟩⟩

theorem hacc_add {g : K} {m : List (Par K)} {h : K} (a : HAcc g m true h) (p : Par K) : HAcc g (m ++ [p]) true (min h p.sz.hausd) := by
  rcases a.val with ⟨e, _⟩ | ⟨_, b⟩
  · exact absurd e (a.loc.mp rfl)
  · exact ⟨by simp, .inr ⟨by simp, least_add p b⟩⟩

theorem smallest_congr {g : K} {m m' : List (Par K)} {x : K} (h : ∀ p, p ∈ m ↔ p ∈ m') (a : Smallest g m x) : Smallest g m' x := by
  rcases a with ⟨e, rfl⟩ | ⟨e, ⟨p1, h1, e1⟩, a1⟩
  · exact .inl ⟨(nil_iff h).mp e, rfl⟩
  · exact .inr ⟨fun c => e ((nil_iff h).mpr c), ⟨p1, (h p1).mp h1, e1⟩, fun p hp => a1 p ((h p).mpr hp)⟩

theorem hacc_congr {g : K} {m m' : List (Par K)} {l : Bool} {x : K} (h : ∀ p, p ∈ m ↔ p ∈ m') (a : HAcc g m l x) : HAcc g m' l x :=
  ⟨a.loc.trans (not_congr (nil_iff h)), smallest_congr h a.val⟩

theorem rest_hacc (hit : Par K → Bool) (g : K) : ∀ (l m : List (Par K)) (s : St K), HAcc g m s.loc s.sz.hausd → (s.loc = true ∨ l = []) →
    HAcc g (m ++ l.filter hit) (rest hit s l).loc (rest hit s l).sz.hausd := by
  intro l
  induction l with
  | nil => intro m s h _; simpa [rest] using h
  | cons p l ih =>
    intro m s h hl
    have hl : s.loc = true := by rcases hl with x | x; exact x; cases x
    unfold rest
    by_cases c : hit p = true
    · rw [if_pos c, List.filter_cons_of_pos c]
      rw [hl] at h
      have := ih (m ++ [p]) { s with sz := meet s.sz p.sz } (by rw [hl]; exact hacc_add h p) (.inl hl)
      simpa using this
    · rw [if_neg c, List.filter_cons_of_neg c]
      exact ih m s h (.inl hl)

theorem first_rest_hacc (hit : Par K → Bool) (g : K) : ∀ (l m : List (Par K)) (s : St K), HAcc g m s.loc s.sz.hausd →
    HAcc g (m ++ l.filter hit) (rest hit (first hit s l).1 (first hit s l).2).loc
      (rest hit (first hit s l).1 (first hit s l).2).sz.hausd := by
  intro l
  induction l with
  | nil => intro m s h; simpa [first, rest] using h
  | cons p l ih =>
    intro m s h
    unfold first
    by_cases hl : s.loc = true
    · rw [if_pos hl]
      exact rest_hacc hit g (p :: l) m s h (.inl hl)
    · rw [if_neg hl]
      have hl : s.loc = false := by simpa using hl
      by_cases c : hit p = true
      · rw [if_pos c, List.filter_cons_of_pos c]
        rw [hl] at h
        have := ih (m ++ [p]) ⟨true, p.sz⟩ (hacc_new h p)
        simpa using this
      · rw [if_neg c, List.filter_cons_of_neg c]
        exact ih m s h

theorem firstTria_spec (l : List (Par K)) :
    (firstTria l = Option.none ∧ ∀ p ∈ l, p.elt ≠ .tria) ∨ ∃ p ∈ l, firstTria l = some p ∧ p.elt = .tria := by
  induction l with
  | nil => exact .inl ⟨rfl, by simp⟩
  | cons p l ih =>
    unfold firstTria
    by_cases c : p.elt = .tria
    · rw [if_pos c]; exact .inr ⟨p, by simp, rfl, c⟩
    · rw [if_neg c]
      rcases ih with ⟨a, b⟩ | ⟨q, hq, a, b⟩
      · exact .inl ⟨a, by intro z hz; rcases List.mem_cons.mp hz with rfl | hz; exact c; exact b z hz⟩
      · exact .inr ⟨q, List.mem_cons_of_mem _ hq, a, b⟩

theorem firstOf_done (a b : Int) (h : K) (i : Int) (l : List (Par K)) : firstOf a b (true, h, i) l = ((true, h, i), l) := by
  cases l with
  | nil => rfl
  | cons p l => unfold firstOf; rw [if_pos rfl]

theorem firstOf_spec (a b : Int) (g : K) : ∀ l : List (Par K),
    (firstOf a b (false, g, -1000) l = ((false, g, -1000), []) ∧ l.filter (hits .tria [a, b]) = []) ∨
      ∃ pre p post, l = pre ++ p :: post ∧ pre.filter (hits .tria [a, b]) = [] ∧ hits .tria [a, b] p = true ∧
        firstOf a b (false, g, -1000) l = ((true, p.sz.hausd, p.ref), post) := by
  intro l
  induction l with
  | nil => exact .inl ⟨rfl, rfl⟩
  | cons p l ih =>
    have hm : hits .tria [a, b] p = true ↔ (p.elt = .tria ∧ (a = p.ref ∨ b = p.ref)) := by
      rw [hits_iff]
      simp only [List.mem_cons, List.not_mem_nil, or_false]
      constructor <;> rintro ⟨x, y⟩ <;> exact ⟨x, by rcases y with y | y <;> [exact .inl y.symm; exact .inr y.symm]⟩
    unfold firstOf
    rw [if_neg (by simp)]
    by_cases c : p.elt = .tria ∧ (a = p.ref ∨ b = p.ref)
    · rw [if_pos c, firstOf_done]
      exact .inr ⟨[], p, l, rfl, rfl, hm.mpr c, rfl⟩
    · rw [if_neg c]
      have c' : ¬hits .tria [a, b] p = true := fun x => c (hm.mp x)
      rcases ih with ⟨x, y⟩ | ⟨pre, q, post, e, x, y, z⟩
      · exact .inl ⟨x, by rw [List.filter_cons_of_neg c', y]⟩
      · exact .inr ⟨p :: pre, q, post, by rw [e]; rfl, by rw [List.filter_cons_of_neg c', x], y, z⟩

theorem secondOf_spec (a b i : Int) (h : K) : ∀ l : List (Par K),
    (secondOf a b i h l = h ∧ ∀ p ∈ l, hits .tria [a, b] p = true → p.ref = i) ∨
      ∃ q ∈ l, hits .tria [a, b] q = true ∧ q.ref ≠ i ∧ secondOf a b i h l = min h q.sz.hausd := by
  intro l
  induction l with
  | nil => exact .inl ⟨rfl, by simp⟩
  | cons p l ih =>
    have hm : hits .tria [a, b] p = true ↔ (p.elt = .tria ∧ (a = p.ref ∨ b = p.ref)) := by
      rw [hits_iff]
      simp only [List.mem_cons, List.not_mem_nil, or_false]
      constructor <;> rintro ⟨x, y⟩ <;> exact ⟨x, by rcases y with y | y <;> [exact .inl y.symm; exact .inr y.symm]⟩
    unfold secondOf
    by_cases c : p.elt = .tria ∧ p.ref ≠ i ∧ (a = p.ref ∨ b = p.ref)
    · rw [if_pos c]
      exact .inr ⟨p, by simp, hm.mpr ⟨c.1, c.2.2⟩, c.2.1, rfl⟩
    · rw [if_neg c]
      rcases ih with ⟨x, y⟩ | ⟨q, hq, x, y, z⟩
      · refine .inl ⟨x, ?_⟩
        intro z hz hz'
        rcases List.mem_cons.mp hz with rfl | hz
        · by_contra d
          have := hm.mp hz'
          exact c ⟨this.1, d, this.2⟩
        · exact y z hz hz'
      · exact .inr ⟨q, List.mem_cons_of_mem _ hq, x, y, z⟩

/-- One entry for each kind and reference. -/
def Once (tab : List (Par K)) : Prop := ∀ p ∈ tab, ∀ q ∈ tab, p.elt = q.elt → p.ref = q.ref → p = q

/-- C101, for the swap of a boundary edge: the smallest distance of the entries that apply to the two triangles and to the tetrahedra is used,
if the triangles have different references or if the first entry of the table on triangles is about them.  What is missing is the case
of equal references with another first entry (`C101_swap_observed`). -/
theorem C101_swap_partial (fTet fTri : Bool) (g : K) (a b : Int) (v : List Int) (tab : List (Par K)) (h : Flags fTet fTri tab)
    (ho : Once tab) (hab : a ≠ b ∨ ∀ p, firstTria tab = some p → p.ref = a) :
    Smallest g (tab.filter (applies v [a, b])) (swapHausd fTet fTri g a b v tab) := by
  have key : ∀ (l : Bool) (x : K), HAcc g (tab.filter (hits .tria [a, b])) l x →
      Smallest g (tab.filter (applies v [a, b])) (if fTet then swapTet (hits .tetra v) tab l x else x) := by
    intro l x hx
    have step : Smallest g (tab.filter (hits .tria [a, b]) ++ tab.filter (hits .tetra v))
        (if fTet then swapTet (hits .tetra v) tab l x else x) := by
      cases fTet with
      | true =>
        exact (first_rest_hacc (hits .tetra v) g tab _ ⟨l, ⟨x, x, x⟩⟩ hx).val
      | false =>
        have : tab.filter (hits .tetra v) = [] := by
          rw [List.filter_eq_nil_iff]
          intro p hp c
          cases h.tet p hp ((hits_iff _ _ _).mp c).1
        rw [this, List.append_nil]
        exact hx.val
    refine smallest_congr ?_ step
    intro p
    simp only [List.mem_append, List.mem_filter, hits_iff, applies, decide_eq_true_eq]
    tauto
  unfold swapHausd
  cases fTri with
  | false =>
    refine key false g ?_
    have : tab.filter (hits .tria [a, b]) = [] := by
      rw [List.filter_eq_nil_iff]
      intro p hp c
      cases h.tri p hp ((hits_iff _ _ _).mp c).1
    rw [this]
    exact ⟨by simp, .inl ⟨rfl, rfl⟩⟩
  | true =>
    by_cases e : a = b
    · subst e
      have hab : ∀ p, firstTria tab = some p → p.ref = a := by
        rcases hab with x | x
        · exact absurd rfl x
        · exact x
      simp only [if_true]
      rcases firstTria_spec tab with ⟨x, y⟩ | ⟨p, hp, x, y⟩
      · rw [x]
        refine key false g ?_
        have : tab.filter (hits .tria [a, a]) = [] := by
          rw [List.filter_eq_nil_iff]
          intro p hp c
          exact y p hp ((hits_iff _ _ _).mp c).1
        rw [this]
        exact ⟨by simp, .inl ⟨rfl, rfl⟩⟩
      · rw [x]
        refine key true p.sz.hausd (hacc_congr (m := [p]) ?_ (hacc_new (m := []) ⟨by simp, .inl ⟨rfl, rfl⟩⟩ p))
        intro q
        rw [List.mem_singleton, List.mem_filter, hits_iff]
        constructor
        · rintro rfl
          exact ⟨hp, y, by simp [hab q x]⟩
        · rintro ⟨hq, e1, e2⟩
          simp at e2
          exact ho q hq p hp (e1.trans y.symm) (e2.trans (hab p x).symm)
    · simp only [if_true, if_neg e]
      rcases firstOf_spec a b g tab with ⟨x, y⟩ | ⟨pre, p, post, et, x, y, z⟩
      · rw [x]
        refine key false g ?_
        rw [y]
        exact ⟨by simp, .inl ⟨rfl, rfl⟩⟩
      · rw [z]
        have hp : p ∈ tab := by rw [et]; simp
        have hpost : ∀ q ∈ post, q ∈ tab := by intro q hq; rw [et]; simp [hq]
        have y' := (hits_iff _ _ _).mp y
        have hpre : ∀ q ∈ pre, ¬hits .tria [a, b] q = true := by
          intro q hq c
          exact List.filter_eq_nil_iff.mp x q hq c
        have split : ∀ q ∈ tab, hits .tria [a, b] q = true → q = p ∨ (q ∈ post ∧ q.ref ≠ p.ref) := by
          intro q hq c
          by_cases d : q.ref = p.ref
          · exact .inl (ho q hq p hp (((hits_iff _ _ _).mp c).1.trans y'.1.symm) d)
          · rw [et] at hq
            rcases List.mem_append.mp hq with hq | hq
            · exact absurd c (hpre q hq)
            · rcases List.mem_cons.mp hq with rfl | hq
              · exact absurd rfl d
              · exact .inr ⟨hq, d⟩
        have base : HAcc g [p] true p.sz.hausd := hacc_new (m := []) ⟨by simp, .inl ⟨rfl, rfl⟩⟩ p
        rcases secondOf_spec a b p.ref p.sz.hausd post with ⟨u, w⟩ | ⟨q, hq, u, w, t⟩
        · show Smallest g _ (if fTet then swapTet (hits .tetra v) tab true (secondOf a b p.ref p.sz.hausd post) else
            secondOf a b p.ref p.sz.hausd post)
          rw [u]
          refine key true _ (hacc_congr ?_ base)
          intro z'
          rw [List.mem_singleton, List.mem_filter]
          constructor
          · rintro rfl; exact ⟨hp, y⟩
          · rintro ⟨m1, m2⟩
            rcases split z' m1 m2 with e1 | ⟨e1, e2⟩
            · exact e1
            · exact absurd (w z' e1 m2) e2
        · show Smallest g _ (if fTet then swapTet (hits .tetra v) tab true (secondOf a b p.ref p.sz.hausd post) else
            secondOf a b p.ref p.sz.hausd post)
          rw [t]
          refine key true _ (hacc_congr ?_ (hacc_add base q))
          intro z'
          rw [List.mem_append, List.mem_singleton, List.mem_singleton, List.mem_filter]
          have u' := (hits_iff _ _ _).mp u
          constructor
          · rintro (rfl | rfl)
            · exact ⟨hp, y⟩
            · exact ⟨hpost _ hq, u⟩
          · rintro ⟨m1, m2⟩
            rcases split z' m1 m2 with e1 | ⟨e1, e2⟩
            · exact .inl e1
            · right
              have m2' := (hits_iff _ _ _).mp m2
              refine ho z' m1 q (hpost q hq) (m2'.1.trans u'.1.symm) ?_
              have f1 := m2'.2
              have f2 := u'.2
              have f3 := y'.2
              simp only [List.mem_cons, List.not_mem_nil, or_false] at f1 f2 f3
              rcases f1 with f1 | f1 <;> rcases f2 with f2 | f2 <;> rcases f3 with f3 | f3 <;> omega

/-- C101 fails for the swap of an edge between triangles of the same reference: the first entry on triangles is used, whatever its reference. -/
theorem C101_swap_observed (g : K) (a : Int) (v : List Int) (p : Par K) (tab : List (Par K)) (hp : p.elt = .tria) :
    swapHausd false true g a a v (p :: tab) = p.sz.hausd := by
  unfold swapHausd firstTria
  simp [hp]

/-! ### Boundary vertices in the plane -/

theorem look_spec (e : Elt) (r : Int) (tab : List (Par K)) (ho : Once tab) (p : Par K) :
    look e r tab = some p ↔ p ∈ tab ∧ p.elt = e ∧ p.ref = r := by
  unfold look
  constructor
  · intro h
    have := List.find?_some h
    exact ⟨List.mem_of_find?_eq_some h, of_decide_eq_true this⟩
  · rintro ⟨hp, h1, h2⟩
    cases h : tab.find? fun p => decide (p.elt = e ∧ p.ref = r) with
    | none =>
      rw [List.find?_eq_none] at h
      exact absurd (decide_eq_true ⟨h1, h2⟩) (h p hp)
    | some q =>
      have hq : decide (q.elt = e ∧ q.ref = r) = true := List.find?_some (p := fun p : Par K => decide (p.elt = e ∧ p.ref = r)) h
      have hq := of_decide_eq_true hq
      rw [ho q (List.mem_of_find?_eq_some h) p hp (hq.1.trans h1.symm) (hq.2.trans h2.symm)]

theorem plTria_hausd (s : Pl K) (o : Option (Par K)) : (plTria s o).sz.hausd = s.sz.hausd ∧ (plTria s o).hloc = s.hloc := by
  cases o with
  | none => exact ⟨rfl, rfl⟩
  | some p => unfold plTria; split_ifs <;> exact ⟨rfl, rfl⟩

theorem edges_hacc (g : K) (tab : List (Par K)) : ∀ (es : List Int) (m : List (Par K)) (s : Pl K), HAcc g m s.hloc s.sz.hausd →
    HAcc g (m ++ es.filterMap (fun e => look .edge e tab)) (es.foldl (fun s e => plEdge s (look .edge e tab)) s).hloc
      (es.foldl (fun s e => plEdge s (look .edge e tab)) s).sz.hausd := by
  intro es
  induction es with
  | nil => intro m s h; simpa using h
  | cons e es ih =>
    intro m s h
    rw [List.foldl_cons]
    cases hl : look .edge e tab with
    | none => rw [List.filterMap_cons, hl]; exact ih m s h
    | some p =>
      rw [List.filterMap_cons, hl]
      have hs : HAcc g (m ++ [p]) (plEdge s (some p)).hloc (plEdge s (some p)).sz.hausd := by
        have e1 : (plEdge s (some p)).hloc = true := by unfold plEdge; dsimp only; split_ifs <;> rfl
        have e2 : (plEdge s (some p)).sz.hausd = if !s.hloc then p.sz.hausd else min s.sz.hausd p.sz.hausd := by
          unfold plEdge; dsimp only; split_ifs <;> rfl
        rw [e1, e2]
        cases hh : s.hloc with
        | false => rw [hh] at h; exact hacc_new h p
        | true => rw [hh] at h; exact hacc_add h p
      have := ih (m ++ [p]) _ hs
      simpa using this

/-- C101, in the plane: the distance at a boundary vertex is the smallest of the entries on the boundary edges of the ball. -/
theorem C101_plane_hausd (g : Sz K) (tab : List (Par K)) (ball : List (Int × List Int)) (r : Int) (ho : Once tab) :
    Smallest g.hausd (tab.filter fun p => decide (p.elt = .edge ∧ ∃ t ∈ ball, p.ref ∈ t.2)) (plane g tab ball r).hausd := by
  have key : ∀ (l : List (Int × List Int)) (m : List (Par K)) (s : Pl K), HAcc g.hausd m s.hloc s.sz.hausd →
      HAcc g.hausd (m ++ l.flatMap (fun t => t.2.filterMap (fun e => look .edge e tab))) (l.foldl (plOne tab) s).hloc
        (l.foldl (plOne tab) s).sz.hausd := by
    intro l
    induction l with
    | nil => intro m s h; simpa using h
    | cons t l ih =>
      intro m s h
      rw [List.foldl_cons, List.flatMap_cons, ← List.append_assoc]
      refine ih _ _ ?_
      unfold plOne
      refine edges_hacc g.hausd tab t.2 m _ ?_
      rw [(plTria_hausd s _).1, (plTria_hausd s _).2]
      exact h
  have a := key ball [] ⟨false, false, g⟩ ⟨by simp, .inl ⟨rfl, rfl⟩⟩
  unfold plane
  rw [(plTria_hausd _ _).1]
  refine smallest_congr ?_ a.val
  intro p
  simp only [List.nil_append, List.mem_flatMap, List.mem_filterMap, List.mem_filter, decide_eq_true_eq, look_spec _ _ _ ho]
  constructor
  · rintro ⟨t, ht, e, he, hp, h1, h2⟩
    exact ⟨hp, h1, t, ht, h2 ▸ he⟩
  · rintro ⟨hp, h1, t, ht, he⟩
    exact ⟨t, ht, p.ref, he, hp, h1, rfl⟩

/-- The entries `m` have been taken for the smallest and the largest size. -/
structure PAcc (g : Sz K) (m : List (Par K)) (s : Pl K) : Prop where
  loc : s.loc = true ↔ m ≠ []
  val : (m = [] ∧ s.sz.hmin = g.hmin ∧ s.sz.hmax = g.hmax) ∨
    (m ≠ [] ∧ Most (fun p => p.sz.hmin) m s.sz.hmin ∧ Least (fun p => p.sz.hmax) m s.sz.hmax)

theorem plTria_acc (g : Sz K) (m : List (Par K)) (s : Pl K) (o : Option (Par K)) (h : PAcc g m s) : PAcc g (m ++ o.toList) (plTria s o) := by
  cases o with
  | none => simpa [plTria] using h
  | some p =>
    unfold plTria
    cases hl : s.loc with
    | false =>
      have hm : m = [] := by
        by_contra c
        rw [h.loc.mpr c] at hl; cases hl
      subst hm
      exact ⟨by simp, .inr ⟨by simp, ⟨⟨p, by simp, rfl⟩, by simp⟩, ⟨⟨p, by simp, rfl⟩, by simp⟩⟩⟩
    | true =>
      rcases h.val with ⟨e, _⟩ | ⟨_, b, c⟩
      · exact absurd e (h.loc.mp hl)
      · exact ⟨by simp [hl], .inr ⟨by simp, most_add p b, least_add p c⟩⟩

/-- C101, in the plane, for a ball without entries on its boundary edges: the strictest entries on its triangles and on the vertex apply.
What is missing are entries on edges (`C101_plane_observed`). -/
theorem C101_plane_partial (g : Sz K) (tab : List (Par K)) (ball : List (Int × List Int)) (r : Int) (ho : Once tab)
    (he : ∀ t ∈ ball, ∀ e ∈ t.2, look .edge e tab = none) :
    let m := tab.filter fun p => decide ((p.elt = .tria ∧ ∃ t ∈ ball, p.ref = t.1) ∨ (p.elt = .vert ∧ p.ref = r))
    (m = [] ∧ (plane g tab ball r).hmin = g.hmin ∧ (plane g tab ball r).hmax = g.hmax) ∨
      (m ≠ [] ∧ Most (fun p => p.sz.hmin) m (plane g tab ball r).hmin ∧ Least (fun p => p.sz.hmax) m (plane g tab ball r).hmax) := by
  intro m
  have skip : ∀ (es : List Int) (s : Pl K), (∀ e ∈ es, look .edge e tab = none) →
      es.foldl (fun s e => plEdge s (look .edge e tab)) s = s := by
    intro es
    induction es with
    | nil => intro s _; rfl
    | cons e es ih =>
      intro s h
      rw [List.foldl_cons, h e (by simp)]
      exact ih s (fun x hx => h x (List.mem_cons_of_mem _ hx))
  have key : ∀ (l : List (Int × List Int)) (m : List (Par K)) (s : Pl K), (∀ t ∈ l, ∀ e ∈ t.2, look .edge e tab = none) → PAcc g m s →
      PAcc g (m ++ l.flatMap (fun t => (look .tria t.1 tab).toList)) (l.foldl (plOne tab) s) := by
    intro l
    induction l with
    | nil => intro m s _ h; simpa using h
    | cons t l ih =>
      intro m s hl h
      rw [List.foldl_cons, List.flatMap_cons, ← List.append_assoc]
      refine ih _ _ (fun x hx => hl x (List.mem_cons_of_mem _ hx)) ?_
      unfold plOne
      rw [skip t.2 _ (hl t (by simp))]
      exact plTria_acc g m s _ h
  have a := plTria_acc g _ _ (look .vert r tab) (key ball [] ⟨false, false, g⟩ he ⟨by simp, .inl ⟨rfl, rfl, rfl⟩⟩)
  have hmem : ∀ p, p ∈ [] ++ ball.flatMap (fun t => (look .tria t.1 tab).toList) ++ (look .vert r tab).toList ↔ p ∈ m := by
    intro p
    simp only [m, List.nil_append, List.mem_append, List.mem_flatMap, Option.mem_toList, Option.mem_def, List.mem_filter,
      decide_eq_true_eq, look_spec _ _ _ ho]
    constructor
    · rintro (⟨t, ht, hp, h1, h2⟩ | ⟨hp, h1, h2⟩)
      · exact ⟨hp, .inl ⟨h1, t, ht, h2⟩⟩
      · exact ⟨hp, .inr ⟨h1, h2⟩⟩
    · rintro ⟨hp, ⟨h1, t, ht, h2⟩ | ⟨h1, h2⟩⟩
      · exact .inl ⟨t, ht, hp, h1, h2⟩
      · exact .inr ⟨hp, h1, h2⟩
  rcases a.val with ⟨e, b⟩ | ⟨e, ⟨⟨p2, h2, e2⟩, a2⟩, ⟨⟨p3, h3, e3⟩, a3⟩⟩
  · exact .inl ⟨(nil_iff hmem).mp e, b⟩
  · exact .inr ⟨fun c => e ((nil_iff hmem).mpr c), ⟨⟨p2, (hmem p2).mp h2, e2⟩, fun p hp => a2 p ((hmem p).mpr hp)⟩,
      ⟨⟨p3, (hmem p3).mp h3, e3⟩, fun p hp => a3 p ((hmem p).mpr hp)⟩⟩

/-- Two edges with entries, of references 1 and 2. -/
def tabE : List (Par Int) := [⟨.edge, 1, ⟨1, 1, 5⟩⟩, ⟨.edge, 2, ⟨1, 1, 9⟩⟩]

/-- C101 fails in the plane for entries on edges: the last one wins, so the sizes depend on the order of the ball, and the largest size can be
that of the less strict entry. -/
theorem C101_plane_observed : (plane ⟨1, 1, 10⟩ tabE [(0, [1]), (0, [2])] 0).hmax = 9 ∧
    (plane ⟨1, 1, 10⟩ tabE [(0, [2]), (0, [1])] 0).hmax = 5 := by decide

/-- An entry on a triangle seen after the edge makes the entry on the edge be forgotten. -/
theorem C101_forget_observed : (plane (⟨1, 1, 10⟩ : Sz Int) [⟨.edge, 1, ⟨1, 1, 2⟩⟩, ⟨.tria, 3, ⟨1, 1, 8⟩⟩] [(0, [1]), (3, [])] 0).hmax = 8 ∧
    (plane (⟨1, 1, 10⟩ : Sz Int) [⟨.edge, 1, ⟨1, 1, 2⟩⟩, ⟨.tria, 3, ⟨1, 1, 8⟩⟩] [(3, []), (0, [1])] 0).hmax = 2 := by decide

/-- C101 fails for sizes that do not fit together: they are repaired at the first vertex only. -/
theorem C101_repair_observed (far : K → K) (s s' : Sz K) (h : s.hmax < s.hmin) (h' : s'.hmax < s'.hmin) :
    (repair far false s).1.hmax = far s.hmin ∧ (repair far (repair far false s).2 s').1 = s' := by
  unfold repair
  simp [h, h']

/-! ### Cases -/

/-- Entries on triangles and tetrahedra. -/
def tab3 : List (Par Int) := [⟨.tria, 1, ⟨5, 1, 9⟩⟩, ⟨.tetra, 1, ⟨7, 2, 8⟩⟩, ⟨.none, 0, ⟨0, 0, 0⟩⟩, ⟨.tria, 4, ⟨1, 3, 4⟩⟩, ⟨.tetra, 2, ⟨2, 2, 7⟩⟩]

example : Flags true true tab3 := ⟨fun _ _ _ => rfl, fun _ _ _ => rfl⟩

example : reg true true ⟨9, 0, 100⟩ [1, 2, 2] [1, 3] tab3 = ⟨2, 2, 7⟩ ∧ nm true true ⟨9, 0, 100⟩ [1, 2, 2] [1, 3] tab3 = ⟨2, 2, 7⟩ ∧
    reg true true ⟨9, 0, 100⟩ [5] [3] tab3 = ⟨9, 0, 100⟩ := by decide

example : swapHausd true true 9 1 4 [2] tab3 = 1 ∧ swapHausd true true 9 1 1 [5] tab3 = 5 ∧ swapHausd true true 9 4 4 [5] tab3 = 5 := by decide

/-- The entry on triangles of reference 5 decides on a swap between triangles of reference 1; it does not apply. -/
example : swapHausd false true (9 : Int) 1 1 [] [⟨.tria, 5, ⟨1, 1, 1⟩⟩] = 1 ∧
    ¬Smallest 9 (([⟨.tria, 5, ⟨1, 1, 1⟩⟩] : List (Par Int)).filter (applies [] [1, 1])) 1 := by
  refine ⟨by decide, ?_⟩
  rintro (⟨_, h⟩ | ⟨h, _⟩)
  · exact absurd h (by decide)
  · exact h rfl

example : Once tab3 := by
  intro p hp q hq
  simp only [tab3, List.mem_cons, List.not_mem_nil, or_false] at hp hq
  rcases hp with rfl | rfl | rfl | rfl | rfl <;> rcases hq with rfl | rfl | rfl | rfl | rfl <;> simp

example : plane (⟨1, 1, 10⟩ : Sz Int) [⟨.tria, 3, ⟨1, 2, 8⟩⟩, ⟨.tria, 4, ⟨1, 3, 9⟩⟩] [(3, []), (4, [1])] 0 = ⟨1, 3, 8⟩ := by decide

end Mmg.LocPar
