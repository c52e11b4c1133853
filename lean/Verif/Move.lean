/-
  C69. Relocation of an interior vertex and test before the collapse of an interior vertex: theorems and
  concrete cases.
-/
import Verif.MoveModel
import Verif.Qual

namespace Mmg.Move

open Mmg.Split3 Mmg.Over Mmg.Shell

variable {K : Type} [Field K] [LinearOrder K] [IsStrictOrderedRing K]

/-! ### Specification -/

/-- A quality that passes the test means a positive volume (`Qual.C67_iso_valid` for the isotropic one). -/
def Valid (E : Env K) : Prop := ∀ a b c d, E.nulkal ≤ E.cal a b c d → 0 < vol a b c d

/-- The stored qualities are those of the tetrahedra. -/
def Exact (E : Env K) (s : St K) (used : Nat → Prop) : Prop := ∀ k, used k → s.qual k = calOf E s.c (s.V k)

/-- The used tetrahedra have four vertices, none of them is the entry 0. -/
def Shape (V : Nat → List Nat) (used : Nat → Prop) : Prop :=
  ∀ k, used k → (V k).length = 4 ∧ (V k).Nodup ∧ 0 ∉ V k

/-! ### Lemmas -/

theorem calOf_set (E : Env K) (c : Nat → Pt K) {v : List Nat} (hl : v.length = 4) (hn : v.Nodup) (h0 : 0 ∉ v)
    {f p : Nat} (hf : f < 4) (hp : v.getD f 0 = p) (x0 : Pt K) :
    calOf E (move c 0 x0) (v.set f 0) = calOf E (move c p x0) v := by
  match v, hl with
  | [a, b, d, e], _ =>
    obtain ⟨⟨n1, n2, n3, n4, n5, n6⟩, m1, m2, m3, m4, m5, m6⟩ := nodup4 hn
    simp only [List.mem_cons, List.not_mem_nil, or_false, not_or] at h0
    obtain ⟨z1, z2, z3, z4⟩ := h0
    subst hp
    interval_cases f <;>
    · simp only [calOf, List.set, List.getD_cons_zero, List.getD_cons_succ, move, Ne.symm z1, Ne.symm z2,
        Ne.symm z3, Ne.symm z4, if_true, if_false, n1, n2, n3, n4, n5, n6, m1, m2, m3, m4, m5, m6]

theorem calOf_away (E : Env K) (c : Nat → Pt K) {v : List Nat} (hl : v.length = 4) {p : Nat} (hp : p ∉ v)
    (x0 : Pt K) : calOf E (move c p x0) v = calOf E c v := by
  match v, hl with
  | [a, b, d, e], _ =>
    simp only [List.mem_cons, List.not_mem_nil, or_false, not_or] at hp
    obtain ⟨z1, z2, z3, z4⟩ := hp
    simp only [calOf, List.getD_cons_zero, List.getD_cons_succ, move, Ne.symm z1, Ne.symm z2, Ne.symm z3,
      Ne.symm z4, if_false]

theorem calOf_pos {E : Env K} (hE : Valid E) {c : Nat → Pt K} {v : List Nat} (h : E.nulkal ≤ calOf E c v) :
    0 < volOf c v := hE _ _ _ _ h

theorem tryAll_ok {E : Env K} {s : St K} {x0 : Pt K} {improve : Nat} : ∀ {l : List Nat} {n : K} {qs : List K} {r : K},
    tryAll E s x0 improve l n = some (qs, r) →
      qs = l.map (fun x => calOf E (move s.c 0 x0) ((s.V (x / 4)).set (x % 4) 0)) ∧
      (∀ q ∈ qs, E.nulkal ≤ q ∧ r ≤ q) ∧ r ≤ n ∧ (improve = 2 → ∀ x ∈ l, E.lenBad x = false)
  | [], n, qs, r, h => by
    simp only [tryAll, Option.some.injEq, Prod.mk.injEq] at h
    obtain ⟨rfl, rfl⟩ := h
    simp
  | x :: l, n, qs, r, h => by
    simp only [tryAll] at h
    split at h
    · exact absurd h (by simp)
    rename_i h1
    split at h
    · exact absurd h (by simp)
    rename_i h2
    split at h
    · exact absurd h (by simp)
    rename_i qs' r' h3
    simp only [Option.some.injEq, Prod.mk.injEq] at h
    obtain ⟨rfl, rfl⟩ := h
    obtain ⟨a, b, d, e⟩ := tryAll_ok h3
    refine ⟨by simp [a], ?_, d.trans (min_le_left _ _), ?_⟩
    · intro q hq
      rcases List.mem_cons.1 hq with rfl | hq
      · exact ⟨not_lt.1 h1, d.trans (min_le_right _ _)⟩
      · exact b q hq
    · intro hi y hy
      rcases List.mem_cons.1 hy with rfl | hy
      · by_contra hc
        exact h2 ⟨hi, by simpa using hc⟩
      · exact e hi y hy

theorem store_not {base : Nat} {qual : Nat → K} {mark : Nat → Nat} {k : Nat} : ∀ {l : List (Nat × K)},
    k ∉ l.map (·.1 / 4) → (store base qual mark l).1 k = qual k ∧ (store base qual mark l).2 k = mark k := by
  intro l
  induction l generalizing qual mark with
  | nil => simp [store]
  | cons y l ih =>
    obtain ⟨x, q⟩ := y
    intro h
    simp only [List.map_cons, List.mem_cons, not_or] at h
    have := ih (qual := fun k => if k = x / 4 then q else qual k)
      (mark := fun k => if k = x / 4 then base else mark k) h.2
    simp only [store, this, if_neg h.1, and_self]

theorem store_mem {base : Nat} {qual : Nat → K} {mark : Nat → Nat} {x : Nat} {q : K} : ∀ {l : List (Nat × K)},
    (l.map (·.1 / 4)).Nodup → (x, q) ∈ l →
      (store base qual mark l).1 (x / 4) = q ∧ (store base qual mark l).2 (x / 4) = base := by
  intro l
  induction l generalizing qual mark with
  | nil => simp
  | cons y l ih =>
    obtain ⟨x', q'⟩ := y
    intro hn h
    simp only [List.map_cons, List.nodup_cons] at hn
    rcases List.mem_cons.1 h with h | h
    · simp only [Prod.mk.injEq] at h
      obtain ⟨rfl, rfl⟩ := h
      have := store_not (base := base) (qual := fun k => if k = x / 4 then q else qual k)
        (mark := fun k => if k = x / 4 then base else mark k) hn.1
      simp only [store, this, if_true, and_self]
    · simp only [store]
      exact ih hn.2 h

theorem acc_old {s : St K} : ∀ (l : List Nat) (a : Acc K),
    (l.foldl (accStep s) a).old ≤ a.old ∧ (∀ x ∈ l, (l.foldl (accStep s) a).old ≤ s.qual (x / 4)) ∧
    ((l.foldl (accStep s) a).old = a.old ∨ ∃ x ∈ l, (l.foldl (accStep s) a).old = s.qual (x / 4))
  | [], a => by simp
  | x :: l, a => by
    obtain ⟨h1, h2, h3⟩ := acc_old l (accStep s a x)
    have e : (accStep s a x).old = min a.old (s.qual (x / 4)) := rfl
    simp only [List.foldl_cons]
    refine ⟨h1.trans (by rw [e]; exact min_le_left _ _), ?_, ?_⟩
    · intro y hy
      rcases List.mem_cons.1 hy with rfl | hy
      · exact h1.trans (by rw [e]; exact min_le_right _ _)
      · exact h2 y hy
    · rcases h3 with h3 | ⟨y, hy, h3⟩
      · rw [h3, e]
        rcases min_choice a.old (s.qual (x / 4)) with hc | hc
        · exact .inl hc
        · exact .inr ⟨x, by simp, hc⟩
      · exact .inr ⟨y, by simp [hy], h3⟩

/-- What an accepted relocation has passed. -/
theorem movint_some {E : Env K} {improve base : Nat} {l : List Nat} {s : St K} {r : St K × OctCall K}
    (h : movint E improve base l s = some r) :
    ∃ qs calnew, E.epsd2 ≤ (acc E s l).tot ∧
      tryAll E s (target E s l) improve l E.big = some (qs, calnew) ∧
      E.epsok ≤ calnew ∧ (improve ≠ 0 → 102 / 100 * (acc E s l).old ≤ calnew) ∧
      3 / 10 * (acc E s l).old ≤ calnew ∧
      r.1.c = move s.c ((s.V (l.getLastD 0 / 4)).getD (l.getLastD 0 % 4) 0) (target E s l) ∧
      r.1.V = s.V ∧ r.1.qual = (store base s.qual s.mark (l.zip qs)).1 ∧
      r.1.mark = (store base s.qual s.mark (l.zip qs)).2 ∧
      r.2 = ⟨(s.V (l.getLastD 0 / 4)).getD (l.getLastD 0 % 4) 0, target E s l,
        s.c ((s.V (l.getLastD 0 / 4)).getD 0 0)⟩ := by
  simp only [movint] at h
  split at h
  · exact absurd h (by simp)
  rename_i h1
  split at h
  · exact absurd h (by simp)
  rename_i qs calnew ht
  split at h
  · exact absurd h (by simp)
  split at h
  · exact absurd h (by simp)
  rename_i h3
  split at h
  · exact absurd h (by simp)
  rename_i h4
  split at h
  · exact absurd h (by simp)
  rename_i h5
  simp only [Option.some.injEq] at h
  subst h
  refine ⟨qs, calnew, not_lt.1 h1, ht, not_lt.1 h3, ?_, not_lt.1 h5, rfl, rfl, rfl, rfl, rfl⟩
  intro hi
  by_contra hc
  exact h4 ⟨hi, not_le.1 hc⟩

theorem last_entry {V : Nat → List Nat} {used : Nat → Prop} {p : Nat} {l : List Nat}
    (hl : Colver.IsBall V used p l) (hne : l ≠ []) : (V (l.getLastD 0 / 4)).getD (l.getLastD 0 % 4) 0 = p := by
  have : l.getLastD 0 ∈ l := by
    rw [List.getLastD_eq_getLast?, List.getLast?_eq_some_getLast hne]
    exact List.getLast_mem hne
  exact (hl.ent _ this).2

theorem zip_map_fst {l : List Nat} (g : Nat → K) : (l.zip (l.map g)).map (·.1 / 4) = l.map (· / 4) := by
  induction l with
  | nil => rfl
  | cons x l ih => simp [ih]

theorem zip_mem {l : List Nat} (g : Nat → K) {x : Nat} (h : x ∈ l) : (x, g x) ∈ l.zip (l.map g) := by
  induction l with
  | nil => simp at h
  | cons y l ih =>
    rcases List.mem_cons.1 h with rfl | h
    · simp
    · simp [ih h]

/-! ## C69 -/

/-- **C69.** An accepted relocation moves this vertex only, to the point computed; vertices of the
tetrahedra are the same. The qualities stored are exact again: those of the tetrahedra around the vertex
are computed at the new position, the others do not change. -/
theorem C69_move {E : Env K} {improve base : Nat} {l : List Nat} {s : St K} {used : Nat → Prop} {p : Nat}
    (hl : Colver.IsBall s.V used p l) (hne : l ≠ []) (hs : Shape s.V used) {s' : St K} {o : OctCall K}
    (h : movint E improve base l s = some (s', o)) :
    s'.c = move s.c p (target E s l) ∧ s'.V = s.V ∧
    (∀ k, used k → p ∈ s.V k → s'.qual k = calOf E s'.c (s'.V k) ∧ s'.mark k = base) ∧
    (∀ k, used k → p ∉ s.V k → s'.qual k = s.qual k ∧ s'.mark k = s.mark k) ∧
    (Exact E s used → Exact E s' used) := by
  obtain ⟨qs, calnew, _, ht, _, _, _, hc, hV, hq, hm, _⟩ := movint_some h
  rw [last_entry hl hne] at hc
  obtain ⟨e, _⟩ := tryAll_ok ht
  have hin : ∀ k, used k → p ∈ s.V k → s'.qual k = calOf E s'.c (s'.V k) ∧ s'.mark k = base := by
    intro k hk hp
    obtain ⟨x, hx, rfl⟩ := List.mem_map.1 (hl.all k hk hp)
    have hz := zip_mem (fun x => calOf E (move s.c 0 (target E s l)) ((s.V (x / 4)).set (x % 4) 0)) hx
    have hst := store_mem (base := base) (qual := s.qual) (mark := s.mark)
      (by rw [zip_map_fst]; exact hl.nd) hz
    rw [← e] at hst
    obtain ⟨s1, s2, s3⟩ := hs (x / 4) hk
    have := calOf_set E s.c s1 s2 s3 (Nat.mod_lt x (by norm_num)) (hl.ent x hx).2 (target E s l)
    simp only at hc hV hq hm
    rw [hq, hm, hc, hV, hst.1, hst.2, this]
    exact ⟨rfl, rfl⟩
  have hout : ∀ k, used k → p ∉ s.V k → s'.qual k = s.qual k ∧ s'.mark k = s.mark k := by
    intro k hk hp
    have hnot : k ∉ (l.zip qs).map (·.1 / 4) := by
      rw [e, zip_map_fst]
      intro hc
      obtain ⟨x, hx, rfl⟩ := List.mem_map.1 hc
      apply hp
      have := (hl.ent x hx).2
      obtain ⟨s1, _, _⟩ := hs (x / 4) hk
      rw [← this, List.getD_eq_getElem?_getD, List.getElem?_eq_getElem (by rw [s1]; exact Nat.mod_lt x (by norm_num))]
      exact List.getElem_mem _
    have := store_not (base := base) (qual := s.qual) (mark := s.mark) hnot
    simp only at hq hm
    rw [hq, hm]
    exact this
  refine ⟨hc, hV, hin, hout, ?_⟩
  intro hE k hk
  by_cases hp : p ∈ s.V k
  · exact (hin k hk hp).1
  · rw [(hout k hk hp).1, hE k hk]
    simp only at hc hV
    rw [hc, hV, calOf_away E s.c (hs k hk).1 hp]

/-- **C69.** After an accepted relocation the worst quality around the vertex is at least the threshold and
at least three tenths of the worst one before; two percents better with `improve`. -/
theorem C69_quality {E : Env K} {improve base : Nat} {l : List Nat} {s : St K} {used : Nat → Prop} {p : Nat}
    (hl : Colver.IsBall s.V used p l) (hne : l ≠ []) (hs : Shape s.V used)
    (hb : ∀ k, used k → s.qual k ≤ E.big) {s' : St K} {o : OctCall K}
    (h : movint E improve base l s = some (s', o)) :
    ∃ j, used j ∧ p ∈ s.V j ∧ (∀ k, used k → p ∈ s.V k → s.qual j ≤ s.qual k) ∧
      ∀ k, used k → p ∈ s.V k → E.nulkal ≤ s'.qual k ∧ E.epsok ≤ s'.qual k ∧ 3 / 10 * s.qual j ≤ s'.qual k ∧
        (improve ≠ 0 → 102 / 100 * s.qual j ≤ s'.qual k) := by
  obtain ⟨qs, calnew, _, ht, h1, h2, h3, hc, hV, hq, hm, _⟩ := movint_some h
  obtain ⟨e, hqs, _⟩ := tryAll_ok ht
  obtain ⟨o1, o2, o3⟩ := acc_old (s := s) l ⟨0, ⟨0, 0, 0⟩, E.big⟩
  have mem : ∀ x ∈ l, used (x / 4) ∧ p ∈ s.V (x / 4) := by
    intro x hx
    have hu := hl.ent x hx
    refine ⟨hu.1, ?_⟩
    obtain ⟨s1, _, _⟩ := hs (x / 4) hu.1
    rw [← hu.2, List.getD_eq_getElem?_getD, List.getElem?_eq_getElem (by rw [s1]; exact Nat.mod_lt x (by norm_num))]
    exact List.getElem_mem _
  obtain ⟨y, hy, ey⟩ : ∃ y ∈ l, (acc E s l).old = s.qual (y / 4) := by
    rcases o3 with o3 | o3
    · obtain ⟨y, hy⟩ := List.exists_mem_of_ne_nil l hne
      exact ⟨y, hy, le_antisymm (o2 y hy) (by unfold acc; rw [o3]; exact hb _ (mem y hy).1)⟩
    · exact o3
  refine ⟨y / 4, (mem y hy).1, (mem y hy).2, ?_, ?_⟩
  · intro k hk hp
    obtain ⟨x, hx, rfl⟩ := List.mem_map.1 (hl.all k hk hp)
    rw [← ey]
    exact o2 x hx
  · intro k hk hp
    obtain ⟨x, hx, rfl⟩ := List.mem_map.1 (hl.all k hk hp)
    have hz := zip_mem (fun x => calOf E (move s.c 0 (target E s l)) ((s.V (x / 4)).set (x % 4) 0)) hx
    have hst := store_mem (base := base) (qual := s.qual) (mark := s.mark)
      (by rw [zip_map_fst]; exact hl.nd) hz
    rw [← e] at hst
    simp only at hq
    have hk' := hqs (s'.qual (x / 4)) (by rw [hq, hst.1, e]; exact List.mem_map.2 ⟨x, hx, rfl⟩)
    rw [← ey]
    exact ⟨hk'.1, h1.trans hk'.2, h3.trans hk'.2, fun hi => (h2 hi).trans hk'.2⟩

/-- **C69.** The worst quality of the mesh does not decrease with `improve`; without it loses at most seven
tenths. -/
theorem C69_worst {E : Env K} {improve base : Nat} {l : List Nat} {s : St K} {used : Nat → Prop} {p : Nat}
    (hl : Colver.IsBall s.V used p l) (hne : l ≠ []) (hs : Shape s.V used)
    (hb : ∀ k, used k → s.qual k ≤ E.big) {b : K} (h0 : 0 ≤ b) (hbelow : ∀ k, used k → b ≤ s.qual k)
    {s' : St K} {o : OctCall K} (h : movint E improve base l s = some (s', o)) :
    (∀ k, used k → 3 / 10 * b ≤ s'.qual k) ∧ (improve ≠ 0 → ∀ k, used k → b ≤ s'.qual k) := by
  obtain ⟨j, hj, _, _, hk'⟩ := C69_quality hl hne hs hb h
  obtain ⟨_, _, _, hout, _⟩ := C69_move hl hne hs h
  have hbj := hbelow j hj
  constructor
  · intro k hk
    by_cases hp : p ∈ s.V k
    · have := (hk' k hk hp).2.2.1
      linarith
    · rw [(hout k hk hp).1]
      have := hbelow k hk
      linarith
  · intro hi k hk
    by_cases hp : p ∈ s.V k
    · have := (hk' k hk hp).2.2.2 hi
      linarith
    · rw [(hout k hk hp).1]
      exact hbelow k hk

/-- **C69.** An accepted relocation of an interior vertex keeps a valid mesh: positive volumes, no overlap. -/
theorem C69_valid {E : Env K} (hE : Valid E) {improve base : Nat} {l : List Nat} {s : St K} {used : Nat → Prop}
    {A : Nat → Nat} {p : Nat} (G : Good A s.V used s.c) (hi : Interior A s.V used p)
    (hl : Colver.IsBall s.V used p l) (hne : l ≠ []) (hs : Shape s.V used) {s' : St K} {o : OctCall K}
    (h : movint E improve base l s = some (s', o)) : Good A s'.V used s'.c := by
  obtain ⟨hc, hV, hin, _, _⟩ := C69_move hl hne hs h
  obtain ⟨qs, calnew, _, ht, _, _, _, _, _, hq, _, _⟩ := movint_some h
  obtain ⟨e, hqs, _⟩ := tryAll_ok ht
  rw [hV, hc]
  refine C66_move G hl _ (within_of_interior hi _ _) ?_
  intro k hk hp
  obtain ⟨x, hx, rfl⟩ := List.mem_map.1 (hl.all k hk hp)
  obtain ⟨s1, s2, s3⟩ := hs (x / 4) hk
  apply calOf_pos hE
  rw [← calOf_set E s.c s1 s2 s3 (Nat.mod_lt x (by norm_num)) (hl.ent x hx).2 (target E s l)]
  exact (hqs _ (by rw [e]; exact List.mem_map.2 ⟨x, hx, rfl⟩)).1

/-- An affine function of the position. -/
structure Lin (K : Type) where
  (a b c d : K)

def Lin.at (f : Lin K) (p : Pt K) : K := f.a * p.x + f.b * p.y + f.c * p.z + f.d

theorem acc_lin (f : Lin K) {s : St K} : ∀ (l : List Nat) (a : Acc K), 0 ≤ a.tot →
    0 ≤ f.a * a.pt.x + f.b * a.pt.y + f.c * a.pt.z + f.d * a.tot →
    (∀ x ∈ l, 0 ≤ volOf s.c (s.V (x / 4)) ∧ ∀ i < 4, 0 ≤ f.at (s.c ((s.V (x / 4)).getD i 0))) →
    0 ≤ (l.foldl (accStep s) a).tot ∧
    0 ≤ f.a * (l.foldl (accStep s) a).pt.x + f.b * (l.foldl (accStep s) a).pt.y +
      f.c * (l.foldl (accStep s) a).pt.z + f.d * (l.foldl (accStep s) a).tot
  | [], a, h, h', _ => ⟨h, h'⟩
  | x :: l, a, h, h', hx => by
    simp only [List.foldl_cons]
    obtain ⟨hv, hf⟩ := hx x (by simp)
    have f0 := hf 0 (by norm_num)
    have f1 := hf 1 (by norm_num)
    have f2 := hf 2 (by norm_num)
    have f3 := hf 3 (by norm_num)
    refine acc_lin f l _ (add_nonneg h hv) ?_ (fun y hy => hx y (by simp [hy]))
    simp only [accStep]
    unfold volOf at hv
    simp only [Lin.at] at f0 f1 f2 f3
    have := mul_nonneg hv (add_nonneg (add_nonneg f0 f1) (add_nonneg f2 f3))
    linarith

/-- **C69.** The position tried is in the convex hull of the tetrahedra around the vertex: it is on the same
side as their vertices of every plane. -/
theorem C69_hull {E : Env K} {improve base : Nat} {l : List Nat} {s : St K} (he : 0 < E.epsd2)
    (hv : ∀ x ∈ l, 0 ≤ volOf s.c (s.V (x / 4))) (f : Lin K)
    (hf : ∀ x ∈ l, ∀ i < 4, 0 ≤ f.at (s.c ((s.V (x / 4)).getD i 0))) {r : St K × OctCall K}
    (h : movint E improve base l s = some r) : 0 ≤ f.at (target E s l) := by
  obtain ⟨_, _, ht, _⟩ := movint_some h
  obtain ⟨_, h2⟩ := acc_lin f (s := s) l ⟨0, ⟨0, 0, 0⟩, E.big⟩ le_rfl (by simp)
    (fun x hx => ⟨hv x hx, hf x hx⟩)
  change 0 ≤ f.a * (acc E s l).pt.x + f.b * (acc E s l).pt.y + f.c * (acc E s l).pt.z + f.d * (acc E s l).tot at h2
  have hp : 0 < (acc E s l).tot := lt_of_lt_of_le he ht
  have e : f.at (target E s l) = (f.a * (acc E s l).pt.x + f.b * (acc E s l).pt.y + f.c * (acc E s l).pt.z +
      f.d * (acc E s l).tot) * (1 / (acc E s l).tot) := by
    simp only [target, Lin.at]
    field_simp
  rw [e]
  positivity

/-- **C69.** The position given as the old one to the octree is the one of the first vertex of the last
tetrahedron of the list. -/
theorem C69_octree {E : Env K} {improve base : Nat} {l : List Nat} {s : St K} {used : Nat → Prop} {p : Nat}
    (hl : Colver.IsBall s.V used p l) (hne : l ≠ []) {s' : St K} {o : OctCall K}
    (h : movint E improve base l s = some (s', o)) :
    o.no = p ∧ o.new = s'.c p ∧ o.old = s.c ((s.V (l.getLastD 0 / 4)).getD 0 0) := by
  obtain ⟨_, _, _, _, _, _, _, hc, _, _, _, ho⟩ := movint_some h
  rw [last_entry hl hne] at hc ho
  simp only at hc ho
  rw [ho, hc]
  exact ⟨rfl, by simp [move], rfl⟩

/-! ### Collapse -/

theorem chkAll_ok {E : Env K} {s : St K} {q : Nat} {edgeBad : Nat → Bool} {checkLen : Bool} :
    ∀ {l : List Nat} {o n o' n' : K}, chkAll E s q edgeBad checkLen l o n = some (o', n') →
      o' ≤ o ∧ n' ≤ n ∧ (o' = o ∨ ∃ x ∈ l, q ∉ s.V (x / 4) ∧ o' = s.qual (x / 4)) ∧
      ∀ x ∈ l, q ∉ s.V (x / 4) → edgeBad x = false ∧ (checkLen = true → E.lenBad x = false) ∧
        o' ≤ s.qual (x / 4) ∧ E.nulkal ≤ calOf E s.c ((s.V (x / 4)).set (x % 4) q) ∧
        n' ≤ calOf E s.c ((s.V (x / 4)).set (x % 4) q)
  | [], o, n, o', n', h => by
    simp only [chkAll, Option.some.injEq, Prod.mk.injEq] at h
    obtain ⟨rfl, rfl⟩ := h
    simp
  | x :: l, o, n, o', n', h => by
    simp only [chkAll] at h
    split at h
    · rename_i hq
      obtain ⟨a, b, d, e⟩ := chkAll_ok h
      refine ⟨a, b, ?_, ?_⟩
      · rcases d with d | ⟨y, hy, d⟩
        · exact .inl d
        · exact .inr ⟨y, by simp [hy], d⟩
      · intro y hy hny
        rcases List.mem_cons.1 hy with rfl | hy
        · exact absurd hq hny
        · exact e y hy hny
    rename_i hq
    split at h
    · exact absurd h (by simp)
    rename_i h1
    split at h
    · exact absurd h (by simp)
    rename_i h2
    split at h
    · exact absurd h (by simp)
    rename_i h3
    obtain ⟨a, b, d, e⟩ := chkAll_ok h
    refine ⟨a.trans (min_le_left _ _), b.trans (min_le_left _ _), ?_, ?_⟩
    · rcases d with d | ⟨y, hy, d⟩
      · rcases min_choice o (s.qual (x / 4)) with hc | hc
        · exact .inl (d.trans hc)
        · exact .inr ⟨x, by simp, hq, d.trans hc⟩
      · exact .inr ⟨y, by simp [hy], d⟩
    · intro y hy hny
      rcases List.mem_cons.1 hy with rfl | hy
      · refine ⟨by simpa using h1, fun hc => ?_, a.trans (min_le_right _ _), not_lt.1 h2, b.trans (min_le_right _ _)⟩
        rw [hc] at h3
        simpa using h3
      · exact e y hy hny

theorem set_map {v : List Nat} {p q f : Nat} (hl : v.length = 4) (hn : v.Nodup) (hf : f < 4) (hp : v.getD f 0 = p) :
    v.set f q = v.map fun a => if a = p then q else a := by
  match v, hl with
  | [a, b, d, e], _ =>
    obtain ⟨⟨n1, n2, n3, n4, n5, n6⟩, m1, m2, m3, m4, m5, m6⟩ := nodup4 hn
    subst hp
    interval_cases f <;>
    · simp only [List.set, List.map, List.getD_cons_zero, List.getD_cons_succ, if_true, if_false,
        n1, n2, n3, n4, n5, n6, m1, m2, m3, m4, m5, m6]

/-- **C69.** A collapse accepted by the test: every new tetrahedron has a positive volume and a quality at
least the threshold and at least three tenths of the worst one of those it replaces; the tests of
lengths and of new edges hold. -/
theorem C69_collapse_test {E : Env K} (hE : Valid E) {s : St K} {used : Nat → Prop} {p q : Nat} {l : List Nat}
    (hl : Colver.IsBall s.V used p l) (hs : Shape s.V used) (hb : ∀ k, used k → s.qual k ≤ E.big)
    {edgeBad : Nat → Bool} {checkLen : Bool} (h : chkcol E s q edgeBad checkLen l = true) :
    ∀ k, used k → p ∈ s.V k → q ∉ s.V k →
      0 < volOf s.c ((s.V k).map fun a => if a = p then q else a) ∧
      E.epsok ≤ calOf E s.c ((s.V k).map fun a => if a = p then q else a) ∧
      (∃ j, used j ∧ p ∈ s.V j ∧ q ∉ s.V j ∧
        3 / 10 * s.qual j ≤ calOf E s.c ((s.V k).map fun a => if a = p then q else a)) ∧
      ∃ x ∈ l, x / 4 = k ∧ edgeBad x = false ∧ (checkLen = true → E.lenBad x = false) := by
  intro k hk hp hq
  unfold chkcol at h
  split at h
  · exact absurd h (by simp)
  rename_i o n hc
  split at h
  · exact absurd h (by simp)
  split at h
  · exact absurd h (by simp)
  rename_i h2
  simp only [not_or, not_lt] at h2
  obtain ⟨a, b, d, e⟩ := chkAll_ok hc
  obtain ⟨x, hx, rfl⟩ := List.mem_map.1 (hl.all k hk hp)
  obtain ⟨e1, e2, e3, e4, e5⟩ := e x hx hq
  obtain ⟨s1, s2, _⟩ := hs (x / 4) hk
  have em := set_map (q := q) s1 s2 (Nat.mod_lt x (by norm_num)) (hl.ent x hx).2
  rw [em] at e4 e5
  refine ⟨calOf_pos hE e4, h2.1.trans e5, ?_, x, hx, rfl, e1, e2⟩
  rcases d with d | ⟨y, hy, hqy, d⟩
  · refine ⟨x / 4, hk, hp, hq, le_trans ?_ (h2.2.trans e5)⟩
    have := hb (x / 4) hk
    rw [d]
    linarith
  · have hu := hl.ent y hy
    refine ⟨y / 4, hu.1, ?_, hqy, by rw [← d]; exact h2.2.trans e5⟩
    obtain ⟨t1, _, _⟩ := hs (y / 4) hu.1
    rw [← hu.2, List.getD_eq_getElem?_getD, List.getElem?_eq_getElem (by rw [t1]; exact Nat.mod_lt y (by norm_num))]
    exact List.getElem_mem _

/-- **C69.** The collapse of an interior vertex accepted by the test keeps a valid mesh: positive volumes, no
overlap. -/
theorem C69_collapse {E : Env K} (hE : Valid E) {tref : Nat → Int} {used : Nat → Prop} {p q : Nat} {s : Colver.St}
    {st : St K} (hV : st.V = s.V) (G : Good s.A s.V used st.c) (hfc : Colver.FaceOK tref used s)
    (hsl : Colver.Slots used s) {l : List Nat} {indq : Nat} {room : Nat → Bool}
    (hl : Colver.IsBall s.V used p l) (hne : l ≠ []) (hq : (s.V (l.headD 0 / 4)).getD indq 0 = q) (hpq : p ≠ q)
    (hi : Interior s.A s.V used p) (hs : Shape s.V used) (hb : ∀ k, used k → st.qual k ≤ E.big)
    {edgeBad : Nat → Bool} {checkLen : Bool} (ht : chkcol E st q edgeBad checkLen l = true)
    {np : Nat} {s' : Colver.St} (h : Colver.colver tref room l indq s = .done np s') :
    Good s'.A s'.V (Colver.O s.V used p q) st.c := by
  refine C66_collapse G hfc hsl hl hne hq hpq (within_of_interior hi _ _) ?_ h
  intro k hk hp hqk
  have := C69_collapse_test hE (s := st) (by rw [hV]; exact hl) (by rw [hV]; exact hs) hb ht k hk
    (by rw [hV]; exact hp) (by rw [hV]; exact hqk)
  rw [hV] at this
  exact this.1

/-- **C69.** The hypothesis on the quality holds for the isotropic quality. -/
theorem C69_iso {E : Env ℝ} (hn : E.nulkal = Qual.NULKAL) (hc : E.cal = Qual.calIso) : Valid E := by
  intro a b c d h
  rw [hn, hc] at h
  rw [← Qual.C67_volume]
  exact Qual.C67_iso_valid h

/-! ### Sequences of relocations -/

/-- Any sequence of accepted relocations of interior vertices, with `improve` not 0. -/
inductive Moves (E : Env K) (A : Nat → Nat) (used : Nat → Prop) : St K → St K → Prop
  | refl (s : St K) : Moves E A used s s
  | step {s s' s'' : St K} {improve base p : Nat} {l : List Nat} {o : OctCall K} (h : Moves E A used s s')
      (hi : improve ≠ 0) (hp : Interior A s'.V used p) (hl : Colver.IsBall s'.V used p l) (hne : l ≠ [])
      (hm : movint E improve base l s' = some (s'', o)) : Moves E A used s s''

/-- **C69.** After any sequence of accepted relocations of interior vertices the mesh is valid, the stored
qualities are exact, and the worst one is not lower than at the beginning. -/
theorem C69_history {E : Env K} (hE : Valid E) (hbig : ∀ a b c d, E.cal a b c d ≤ E.big) {A : Nat → Nat}
    {used : Nat → Prop} {s s' : St K} (h : Moves E A used s s') (G : Good A s.V used s.c) (hs : Shape s.V used)
    (he : Exact E s used) {b : K} (h0 : 0 ≤ b) (hb : ∀ k, used k → b ≤ s.qual k) :
    s'.V = s.V ∧ Good A s'.V used s'.c ∧ Exact E s' used ∧ ∀ k, used k → b ≤ s'.qual k := by
  induction h with
  | refl => exact ⟨rfl, G, he, hb⟩
  | @step s1 s2 _ _ _ _ _ h hi hp hl hne hm ih =>
    obtain ⟨hV, G', he', hb'⟩ := ih
    have hs' : Shape s1.V used := by rw [hV]; exact hs
    have hB := C69_move hl hne hs' hm
    refine ⟨hB.2.1.trans hV, C69_valid hE G' hp hl hne hs' hm, hB.2.2.2.2 he', ?_⟩
    exact (C69_worst hl hne hs' (fun k hk => by rw [he' k hk]; exact hbig _ _ _ _) h0 hb' hm).2 hi

/-! ### Concrete cases -/

namespace Ex

/-- A quality of rational points: the volume. -/
def env : Env ℚ := ⟨1 / 1000, 1 / 1000, 1 / 100, 1000, fun a b c d => vol a b c d, fun _ => false⟩

theorem env_valid : Valid env := by
  intro a b c d h
  simp only [env] at h
  linarith

/-- The mesh of `Over.Ex` with the interior vertex away from the middle. -/
def st : St ℚ :=
  ⟨move Over.Ex.c 5 ⟨1, 1, 1 / 2⟩, Over.Ex.V, fun k => volOf (move Over.Ex.c 5 ⟨1, 1, 1 / 2⟩) (Over.Ex.V k),
    fun _ => 0⟩

theorem good : Good Over.Ex.A st.V Over.Ex.U st.c := by
  refine C66_move Over.Ex.good Over.Ex.ball _ (within_of_interior Over.Ex.interior _ _) ?_
  rintro k ⟨h1, h2⟩ -
  interval_cases k <;> decide +kernel

theorem shape : Shape st.V Over.Ex.U := by
  rintro k ⟨h1, h2⟩
  interval_cases k <;> exact ⟨rfl, by decide, by decide⟩

theorem exact : Exact env st Over.Ex.U := fun _ _ => rfl

/-- **C69 (observed).** A relocation that is accepted, with all the hypotheses of the theorems; the octree is
given the position of another vertex as the old one of the moved one. -/
theorem C69_octree_observed : Good Over.Ex.A st.V Over.Ex.U st.c ∧ Interior Over.Ex.A st.V Over.Ex.U 5 ∧
    Colver.IsBall st.V Over.Ex.U 5 [9, 4, 14, 19] ∧ Shape st.V Over.Ex.U ∧
    (∀ k, Over.Ex.U k → st.qual k ≤ env.big) ∧
    ∃ s' o, movint env 1 7 [9, 4, 14, 19] st = some (s', o) ∧ s'.c 5 ≠ st.c 5 ∧ o.no = 5 ∧ o.old ≠ st.c 5 ∧
      o.old = st.c 1 := by
  refine ⟨good, Over.Ex.interior, Over.Ex.ball, shape, ?_, ?_⟩
  · rintro k ⟨h1, h2⟩
    interval_cases k <;> decide +kernel
  · have key : (match movint env 1 7 [9, 4, 14, 19] st with
      | some (s', o) => decide ((s'.c 5).z ≠ (st.c 5).z) && (decide (o.no = 5) && (decide (o.old.x ≠ (st.c 5).x) &&
        (decide (o.old.x = (st.c 1).x) && (decide (o.old.y = (st.c 1).y) && decide (o.old.z = (st.c 1).z)))))
      | none => false) = true := by decide +kernel
    generalize hr : movint env 1 7 [9, 4, 14, 19] st = R at key
    match R, hr with
    | some (s', o), hr =>
      simp only [Bool.and_eq_true, decide_eq_true_eq] at key
      obtain ⟨k1, k2, k3, k4, k5, k6⟩ := key
      refine ⟨s', o, rfl, fun h => k1 (by rw [h]), k2, fun h => k3 (by rw [h]), ?_⟩
      rcases hO : o.old with ⟨x, y, z⟩
      rw [hO] at k4 k5 k6
      simp only at k4 k5 k6
      rw [k4, k5, k6]
    | none, _ => exact absurd key (by decide)

/-- A refused relocation: the vertex is already at the best place; a collapse that passes the test, and
one that does not. -/
example : (movint env 1 7 [9, 4, 14, 19] { st with c := Over.Ex.c, qual := fun _ => 16 }).isNone = true ∧
    chkcol env st 1 (fun _ => false) true [9, 4, 14, 19] = true ∧
    chkcol env st 1 (fun x => x == 4) true [9, 4, 14, 19] = false ∧
    chkcol { env with epsok := 100 } st 1 (fun _ => false) true [9, 4, 14, 19] = false := by decide +kernel

end Ex

end Mmg.Move
