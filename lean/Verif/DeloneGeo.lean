/-
  Orientation and volume after the insertion of a vertex.
-/
import Verif.DeloneMesh
import Mathlib.Tactic.LinearCombination
import Mathlib.Tactic.Ring

namespace Mmg.Delone

open Mmg.Split3 Mmg.Swap23 Mmg.Shell Mmg.Hash

/-- In face `f` of `v`, `b` comes after `a`. -/
def Follows (v : List Nat) (f a b : Nat) : Prop :=
  ∃ i < 3, v.getD (idirf f i) 0 = a ∧ v.getD (idirf f ((i + 1) % 3)) 0 = b

theorem follows_iff (v : List Nat) (f a b : Nat) : Follows v f a b ↔
    (v.getD (idirf f 0) 0 = a ∧ v.getD (idirf f 1) 0 = b) ∨
    (v.getD (idirf f 1) 0 = a ∧ v.getD (idirf f 2) 0 = b) ∨
    (v.getD (idirf f 2) 0 = a ∧ v.getD (idirf f 0) 0 = b) := by
  constructor
  · rintro ⟨i, hi, h⟩
    interval_cases i
    · exact .inl h
    · exact .inr (.inl h)
    · exact .inr (.inr h)
  · rintro (h | h | h)
    · exact ⟨0, by decide, h⟩
    · exact ⟨1, by decide, h⟩
    · exact ⟨2, by decide, h⟩

/-- The two faces of a tetrahedron through an edge. -/
theorem follows_oth {v : List Nat} {a b f : Nat} (h : Has v a b) (ht : Thru v a b f) :
    Follows v f a b ↔ ¬ Follows v (oth v a b f) a b := by
  obtain ⟨hl, hnd, hne, ha, hb⟩ := h
  obtain ⟨hf, f1, f2⟩ := ht
  match v, hl with
  | [x, y, z, w], _ =>
    obtain ⟨⟨n1, n2, n3, n4, n5, n6⟩, m1, m2, m3, m4, m5, m6⟩ := nodup4 hnd
    have R4 : List.range 4 = [0, 1, 2, 3] := rfl
    simp only [List.mem_cons, List.not_mem_nil, or_false] at ha hb
    rcases ha with rfl | rfl | rfl | rfl <;> rcases hb with rfl | rfl | rfl | rfl <;>
      first | exact absurd rfl hne | skip
    all_goals
      interval_cases f <;> first
        | exact absurd rfl f1
        | exact absurd rfl f2
        | skip
      all_goals
        simp [follows_iff, oth, R4, List.find?, idirf, n1, n2, n3, n4, n5, n6, m1, m2, m3, m4, m5, m6]

/-- The two sides of a face. -/
theorem follows_facing {v v' : List Nat} {a b f f' : Nat} (h : Has v a b) (ht : Thru v a b f)
    (hF : Facing v v' f f') : Follows v f a b ↔ ¬ Follows v' f' a b := by
  obtain ⟨hl, hnd, hne, ha, hb⟩ := h
  obtain ⟨hf, f1, f2⟩ := ht
  obtain ⟨r, hr, hF⟩ := hF
  have g0 := hF 0 (by decide)
  have g1 := hF 1 (by decide)
  have g2 := hF 2 (by decide)
  rw [follows_iff v' f']
  match v, hl with
  | [x, y, z, w], _ =>
    obtain ⟨⟨n1, n2, n3, n4, n5, n6⟩, m1, m2, m3, m4, m5, m6⟩ := nodup4 hnd
    simp only [List.mem_cons, List.not_mem_nil, or_false] at ha hb
    interval_cases r <;>
    · simp only [Nat.zero_add, Nat.reduceAdd, Nat.reduceMod, Nat.reduceSub] at g0 g1 g2
      rw [g0, g1, g2]
      rcases ha with rfl | rfl | rfl | rfl <;> rcases hb with rfl | rfl | rfl | rfl <;>
        first | exact absurd rfl hne | skip
      all_goals
        interval_cases f <;> first
          | exact absurd rfl f1
          | exact absurd rfl f2
          | skip
        all_goals
          simp [follows_iff, idirf, n1, n2, n3, n4, n5, n6, m1, m2, m3, m4, m5, m6]

/-- The three vertices of a face. -/
theorem face_getD {v : List Nat} {f : Nat} (hl : v.length = 4) (hf : f < 4) :
    faceTri 0 v f = {v.getD (idirf f 0) 0, v.getD (idirf f 1) 0, v.getD (idirf f 2) 0} := by
  match v, hl with
  | [x, y, z, w], _ =>
    interval_cases f <;>
    · simp only [faceTri, others, idirf, List.getD_cons_zero, List.getD_cons_succ, List.map_cons,
        List.map_nil, Multiset.insert_eq_cons, ← Multiset.singleton_add,
        ← Multiset.coe_singleton, Multiset.coe_add]
      rw [Multiset.coe_eq_coe, List.perm_iff_count]
      intro x
      simp only [List.count_cons, List.count_nil, List.cons_append, List.nil_append]
      all_goals omega

theorem order3 {x y z a b c : Nat} (hab : a ≠ b) (hca : c ≠ a) (hcb : c ≠ b)
    (h : ({x, y, z} : Multiset Nat) = {a, b, c}) :
    (x = a ∧ y = b ∧ z = c) ∨ (x = a ∧ y = c ∧ z = b) ∨ (x = b ∧ y = a ∧ z = c) ∨
      (x = b ∧ y = c ∧ z = a) ∨ (x = c ∧ y = a ∧ z = b) ∨ (x = c ∧ y = b ∧ z = a) := by
  have ma : a ∈ ({x, y, z} : Multiset Nat) := by rw [h]; simp
  have mb : b ∈ ({x, y, z} : Multiset Nat) := by rw [h]; simp
  have mc : c ∈ ({x, y, z} : Multiset Nat) := by rw [h]; simp
  simp only [Multiset.insert_eq_cons, Multiset.mem_cons, Multiset.mem_singleton] at ma mb mc
  clear h
  rcases ma with rfl | rfl | rfl <;> rcases mb with rfl | rfl | rfl <;>
    rcases mc with rfl | rfl | rfl <;> simp_all

theorem opposite3 {x0 x1 x2 y0 y1 y2 a b c : Nat} (hab : a ≠ b) (hca : c ≠ a) (hcb : c ≠ b)
    (h : ({x0, x1, x2} : Multiset Nat) = {a, b, c}) (h' : ({y0, y1, y2} : Multiset Nat) = {a, b, c})
    (hF : (x0 = a ∧ x1 = b ∨ x1 = a ∧ x2 = b ∨ x2 = a ∧ x0 = b) ↔
      ¬ (y0 = a ∧ y1 = b ∨ y1 = a ∧ y2 = b ∨ y2 = a ∧ y0 = b)) :
    (y0 = x0 ∧ y1 = x2 ∧ y2 = x1) ∨ (y1 = x0 ∧ y2 = x2 ∧ y0 = x1) ∨
      (y2 = x0 ∧ y0 = x2 ∧ y1 = x1) := by
  have o := order3 hab hca hcb h
  have o' := order3 hab hca hcb h'
  clear h h'
  rcases o with ⟨rfl, rfl, rfl⟩ | ⟨rfl, rfl, rfl⟩ | ⟨rfl, rfl, rfl⟩ | ⟨rfl, rfl, rfl⟩ |
      ⟨rfl, rfl, rfl⟩ | ⟨rfl, rfl, rfl⟩ <;>
    rcases o' with ⟨rfl, rfl, rfl⟩ | ⟨rfl, rfl, rfl⟩ | ⟨rfl, rfl, rfl⟩ | ⟨rfl, rfl, rfl⟩ |
      ⟨rfl, rfl, rfl⟩ | ⟨rfl, rfl, rfl⟩ <;>
    first
      | exact .inl ⟨rfl, rfl, rfl⟩
      | exact .inr (.inl ⟨rfl, rfl, rfl⟩)
      | exact .inr (.inr ⟨rfl, rfl, rfl⟩)
      | (exfalso; simp_all)

/-- Two faces on the same vertices, seen in opposite orders. -/
theorem facing_of {v v' : List Nat} {f f' a b : Nat} (h : Has v a b) (ht : Thru v a b f)
    (h' : Has v' a b) (ht' : Thru v' a b f') (he : faceTri 0 v f = faceTri 0 v' f')
    (hF : Follows v f a b ↔ ¬ Follows v' f' a b) : Facing v v' f f' := by
  obtain ⟨e1, t1, o1, d1⟩ := face_thru h ht
  have e2 := he.symm.trans e1
  rw [face_getD h.len ht.1] at e1
  rw [face_getD h'.len ht'.1] at e2
  rw [follows_iff, follows_iff] at hF
  rcases opposite3 h.ne t1.2.1 t1.2.2 e1 e2 hF with ⟨h0, h1, h2⟩ | ⟨h0, h1, h2⟩ | ⟨h0, h1, h2⟩
  · refine ⟨0, by decide, fun i hi => ?_⟩
    interval_cases i <;> assumption
  · refine ⟨1, by decide, fun i hi => ?_⟩
    interval_cases i <;> assumption
  · refine ⟨2, by decide, fun i hi => ?_⟩
    interval_cases i <;> assumption

/-- The order of a face does not depend on the opposite vertex. -/
theorem idirf_ne {f i : Nat} (hf : f < 4) (hi : i < 3) : f ≠ idirf f i := by
  interval_cases f <;> interval_cases i <;> decide

theorem follows_set {v : List Nat} {f a b ip : Nat} (hf : f < 4) :
    Follows (v.set f ip) f a b ↔ Follows v f a b := by
  rw [follows_iff, follows_iff, getD_set_ne (idirf_ne hf (by decide)),
    getD_set_ne (idirf_ne hf (by decide)), getD_set_ne (idirf_ne hf (by decide))]

theorem facing_symm {v v' : List Nat} {f f' : Nat} (h : Facing v v' f f') : Facing v' v f' f := by
  obtain ⟨r, hr, h⟩ := h
  have g0 := h 0 (by decide)
  have g1 := h 1 (by decide)
  have g2 := h 2 (by decide)
  refine ⟨r, hr, fun i hi => ?_⟩
  interval_cases r <;> interval_cases i <;>
    simp only [Nat.zero_add, Nat.reduceAdd, Nat.reduceMod, Nat.reduceSub] at g0 g1 g2 ⊢ <;>
    first | exact g0.symm | exact g1.symm | exact g2.symm

section
variable {s0 : St} {used : Nat → Prop} {base ip : Nat} {l : List Nat} {new : Nat → Nat}

open Classical in
/-- Two faces of the surface through an edge see it in opposite orders. -/
theorem surf_follows {A : Nat → Nat} {V : Nat → List Nat} (hm : Mesh A V used)
    (ho : Oriented A V used) (hl : ∀ k ∈ l, used k) (hp : NoPinch A V l) {d d' : Nat × Nat}
    (hne : d ≠ d') {a b : Nat}
    (od : Outer A l d.1 d.2) (hh : Has (V d.1) a b) (ht : Thru (V d.1) a b d.2)
    (od' : Outer A l d'.1 d'.2) (hh' : Has (V d'.1) a b) (ht' : Thru (V d'.1) a b d'.2) :
    Follows (V d.1) d.2 a b ↔ ¬ Follows (V d'.1) d'.2 a b := by
  have hs := surf_sum hm hl (M := ℤ) (fun d => if Follows (V d.1) d.2 a b then 1 else -1)
    (a := a) (b := b) (fun x hx => ?_) (fun x hx hxo => ?_)
  · have he : (around V l a b).filter (fun d => Outer A l d.1 d.2) = {d, d'} := by
      ext x
      rw [Finset.mem_filter, Finset.mem_insert, Finset.mem_singleton, mem_around]
      constructor
      · rintro ⟨⟨h1, h2, h3⟩, h4⟩
        have mem : ∀ y : Nat × Nat, Has (V y.1) a b → Thru (V y.1) a b y.2 →
            a ∈ faceTri 0 (V y.1) y.2 ∧ b ∈ faceTri 0 (V y.1) y.2 := by
          intro y g1 g2
          rw [(face_thru g1 g2).1]
          simp
        rcases hp a b hh.ne x d d' ⟨h4, mem x h2 h3⟩ ⟨od, mem d hh ht⟩ ⟨od', mem d' hh' ht'⟩ with
          h | h | h
        · exact .inl h
        · exact absurd h hne
        · exact .inr h
      · rintro (rfl | rfl)
        · exact ⟨⟨od.1, hh, ht⟩, od⟩
        · exact ⟨⟨od'.1, hh', ht'⟩, od'⟩
    rw [he, Finset.sum_pair hne] at hs
    by_cases h1 : Follows (V d.1) d.2 a b <;> by_cases h2 : Follows (V d'.1) d'.2 a b <;>
      simp [h1, h2] at hs ⊢
  · obtain ⟨h1, h2, h3⟩ := mem_around.1 hx
    have := follows_oth h2 h3
    by_cases h1 : Follows (V x.1) x.2 a b
    · have h2 : ¬ Follows (V (rev V a b x).1) (rev V a b x).2 a b := this.1 h1
      rw [if_pos h1, if_neg h2]; rfl
    · have h2 : Follows (V (rev V a b x).1) (rev V a b x).2 a b := by
        by_contra h; exact h1 (this.2 h)
      rw [if_neg h1, if_pos h2]; rfl
  · obtain ⟨h1, h2, h3⟩ := mem_around.1 hx
    have h0 : link A x.1 x.2 ≠ 0 := fun h => hxo ⟨h1, h3.1, .inl h⟩
    have := follows_facing h2 h3 (ho x.1 (hl _ h1) x.2 h3.1 h0)
    by_cases h1 : Follows (V x.1) x.2 a b
    · rw [if_pos h1, if_neg (this.1 h1)]; rfl
    · rw [if_neg h1, if_pos (by by_contra h; exact h1 (this.2 h))]; rfl

theorem Sit.oriented (H : Sit s0 used base ip l new) (hp : NoPinch s0.A s0.V l)
    (hor : Oriented s0.A s0.V used) {s : St}
    (R : Result s0 used ip l new (extFaces s0 base l) s) :
    Oriented s.A s.V (After used l new (extFaces s0 base l).length) := by
  have hE : ∀ n d, (extFaces s0 base l)[n]? = some d → n < (extFaces s0 base l).length ∧ d.1 ∈ l ∧
      used d.1 ∧ Outer s0.A l d.1 d.2 := by
    intro n d hn
    have ho := H.mem_ext.1 (List.mem_of_getElem? hn)
    exact ⟨(List.getElem?_eq_some_iff.1 hn).1, ho.1, H.cav.sub _ ho.1, ho⟩
  have setF : ∀ (v v' : List Nat) (i f' : Nat), i < 4 → Facing v v' i f' → Facing (v.set i ip) v' i f' := by
    rintro v v' i f' hi ⟨r, hr, h⟩
    refine ⟨r, hr, fun j hj => ?_⟩
    rw [getD_set_ne (idirf_ne hi (Nat.mod_lt _ (by decide)))]
    exact h j hj
  rintro k (⟨hk, hkl⟩ | ⟨n, hn, rfl⟩) f hf h0
  · by_cases hc : link s0.A k f = 0 ∨ link s0.A k f / 4 ∉ l
    · have hr := R.rest k hk hkl f hf hc
      rw [hr] at h0 ⊢
      obtain ⟨hu, _⟩ := H.mesh.adj.ok k hk f hf h0
      rw [R.V k hk hkl, R.V _ hu (hc.resolve_left h0)]
      exact hor k hk f hf h0
    · push Not at hc
      obtain ⟨hc0, hcl⟩ := hc
      obtain ⟨hu, _, hsym, _⟩ := H.mesh.adj.ok k hk f hf hc0
      have hm4 : link s0.A k f % 4 < 4 := Nat.mod_lt _ (by decide)
      have hk1 := H.mesh.adj.pos k hk
      have hdiv : (4 * k + f) / 4 = k := by omega
      have hmod : (4 * k + f) % 4 = f := by omega
      have ho : Outer s0.A l (link s0.A k f / 4) (link s0.A k f % 4) := by
        refine ⟨hcl, hm4, .inr ?_⟩
        rw [hsym, hdiv]; exact hkl
      obtain ⟨n, hn⟩ := List.mem_iff_getElem?.1
        (H.mem_ext (d := (link s0.A k f / 4, link s0.A k f % 4)) |>.2 ho)
      have hb := R.back n _ hn (by simp only [hsym]; omega)
      simp only [hsym, hdiv, hmod] at hb
      rw [hb, show (4 * new n + link s0.A k f % 4) / 4 = new n by omega,
        show (4 * new n + link s0.A k f % 4) % 4 = link s0.A k f % 4 by omega, R.V k hk hkl,
        R.Vn n _ hn]
      exact facing_symm (setF _ _ _ _ hm4 (facing_symm (hor k hk f hf hc0)))
  · have hn' : (extFaces s0 base l)[n]? = some ((extFaces s0 base l)[n]) :=
      List.getElem?_eq_getElem hn
    generalize (extFaces s0 base l)[n] = d at hn'
    obtain ⟨_, hdl, hdu, ho⟩ := hE n d hn'
    by_cases hfd : f = d.2
    · subst hfd
      have hr := R.own n d hn'
      rw [hr] at h0 ⊢
      obtain ⟨hu, _⟩ := H.mesh.adj.ok _ hdu _ hf h0
      rw [R.Vn n d hn', R.V _ hu (ho.2.2.resolve_left h0)]
      exact setF _ _ _ _ hf (hor _ hdu _ hf h0)
    · obtain ⟨n', d', a, b, hm', hne, f1, f2, f3, hh', ht', o4, o5, p1, p2⟩ := H.inner hp R hn' hf hfd
      obtain ⟨_, hdl', hdu', ho'⟩ := hE n' d' hm'
      rw [p1, show (4 * new n' + oth (s0.V d'.1) a b d'.2) / 4 = new n' by omega,
        show (4 * new n' + oth (s0.V d'.1) a b d'.2) % 4 = oth (s0.V d'.1) a b d'.2 by omega,
        R.Vn _ _ hn', R.Vn _ _ hm']
      obtain ⟨g1, g2, g3, g4⟩ := set_has (ip := ip) (H.ip _ hdl) f1 f2
      obtain ⟨g1', g2', g3', g4'⟩ := set_has (ip := ip) (H.ip _ hdl') hh' ht'
      rw [f3] at g2 g3
      have q1 := (face_thru g1 g2).1
      have q2 := (face_thru g1' g2').1
      rw [g3, g4] at q1
      rw [g3', g4'] at q2
      refine facing_of g1 g2 g1' g2' (q1.trans q2.symm) ?_
      have w1 := follows_oth g1 g2
      have w2 := follows_oth g1' g2'
      rw [g3, follows_set ho.2.1] at w1
      rw [g3', follows_set ho'.2.1] at w2
      simp only [newV]
      rw [w1, w2, surf_follows H.mesh hor H.cav.sub hp hne ho f1 f2 ho' hh' ht']

/-! ### Volume -/

section
variable {K : Type} [Field K]

theorem vol_fan (c : Nat → Pt K) {v : List Nat} (hl : v.length = 4) (p : Nat) :
    ∑ i ∈ Finset.range 4, volOf c (v.set i p) = volOf c v := by
  match v, hl with
  | [x, y, z, w], _ =>
    simp only [Finset.sum_range_succ, Finset.sum_range_zero, List.set, volOf, List.getD_cons_zero,
      List.getD_cons_succ, vol]
    ring

/-- Volume over a face. -/
theorem vol_face (c : Nat → Pt K) {v : List Nat} (hl : v.length = 4) {f : Nat} (hf : f < 4)
    (p : Nat) : volOf c (v.set f p) =
      vol (c p) (c (v.getD (idirf f 0) 0)) (c (v.getD (idirf f 1) 0)) (c (v.getD (idirf f 2) 0)) := by
  match v, hl with
  | [x, y, z, w], _ =>
    interval_cases f <;>
    · simp only [List.set, volOf, idirf, List.getD_cons_zero, List.getD_cons_succ, vol]
      try ring

theorem vol_facing (c : Nat → Pt K) {v v' : List Nat} (hl : v.length = 4) (hl' : v'.length = 4)
    {f f' : Nat} (hf : f < 4) (hf' : f' < 4) (hF : Facing v v' f f') (p : Nat) :
    volOf c (v.set f p) + volOf c (v'.set f' p) = 0 := by
  rw [vol_face c hl hf, vol_face c hl' hf']
  obtain ⟨r, hr, h⟩ := hF
  have g0 := h 0 (by decide)
  have g1 := h 1 (by decide)
  have g2 := h 2 (by decide)
  interval_cases r <;>
  · simp only [Nat.zero_add, Nat.reduceAdd, Nat.reduceMod, Nat.reduceSub] at g0 g1 g2
    rw [g0, g1, g2]
    simp only [vol]
    ring

open Classical in
theorem Sit.volume (H : Sit s0 used base ip l new) (hor : Oriented s0.A s0.V used) {s : St}
    (R : Result s0 used ip l new (extFaces s0 base l) s) (c : Nat → Pt K) :
    ∑ n ∈ Finset.range (extFaces s0 base l).length, volOf c (s.V (new n)) =
      (l.map fun k => volOf c (s0.V k)).sum := by
  set E := extFaces s0 base l
  let σ : Nat × Nat → K := fun d => volOf c ((s0.V d.1).set d.2 ip)
  let P : Finset (Nat × Nat) := l.toFinset ×ˢ Finset.range 4
  have hP : ∀ d, d ∈ P ↔ d.1 ∈ l ∧ d.2 < 4 := fun d => by simp [P]
  have h1 : ∑ n ∈ Finset.range E.length, volOf c (s.V (new n)) = (E.map σ).sum := by
    have e : (List.range E.length).toFinset = Finset.range E.length := by ext; simp
    rw [← e, List.sum_toFinset _ List.nodup_range]
    congr 1
    refine List.ext_getElem (by simp) fun n h1 h2 => ?_
    have hn : n < E.length := by simpa using h1
    simp only [List.getElem_map, List.getElem_range]
    rw [R.Vn n _ (List.getElem?_eq_getElem hn)]
    rfl
  have h2 : (E.map σ).sum = ∑ d ∈ P.filter (fun d => Outer s0.A l d.1 d.2), σ d := by
    rw [← List.sum_toFinset σ H.nodup]
    congr 1
    ext d
    rw [List.mem_toFinset, H.mem_ext, Finset.mem_filter, hP]
    exact ⟨fun h => ⟨⟨h.1, h.2.1⟩, h⟩, fun h => h.2⟩
  have h3 : ∑ d ∈ P.filter (fun d => ¬ Outer s0.A l d.1 d.2), σ d = 0 := by
    have inn : ∀ d ∈ P.filter (fun d => ¬ Outer s0.A l d.1 d.2),
        d.1 ∈ l ∧ d.2 < 4 ∧ used d.1 ∧ link s0.A d.1 d.2 ≠ 0 ∧ link s0.A d.1 d.2 / 4 ∈ l := by
      intro d hd
      obtain ⟨hd, ho⟩ := Finset.mem_filter.1 hd
      obtain ⟨hd1, hd2⟩ := (hP d).1 hd
      refine ⟨hd1, hd2, H.cav.sub _ hd1, fun h => ho ⟨hd1, hd2, .inl h⟩, ?_⟩
      by_contra h
      exact ho ⟨hd1, hd2, .inr h⟩
    have m4 : ∀ x : Nat, x % 4 < 4 := fun x => Nat.mod_lt _ (by decide)
    refine Finset.sum_involution (fun d _ => (link s0.A d.1 d.2 / 4, link s0.A d.1 d.2 % 4))
      (fun d hd => ?_) (fun d hd _ he => ?_) (fun d hd => ?_) (fun d hd => ?_)
    · obtain ⟨i1, i2, i3, i4, i5⟩ := inn d hd
      exact vol_facing c (H.mesh.len _ i3) (H.mesh.len _ (H.cav.sub _ i5)) i2 (m4 _)
        (hor _ i3 _ i2 i4) ip
    · obtain ⟨i1, i2, i3, i4, i5⟩ := inn d hd
      exact (H.mesh.adj.ok _ i3 _ i2 i4).2.1 (congrArg Prod.fst he)
    · obtain ⟨i1, i2, i3, i4, i5⟩ := inn d hd
      have hs := (H.mesh.adj.ok _ i3 _ i2 i4).2.2.1
      have := H.mesh.adj.pos _ i3
      refine Finset.mem_filter.2 ⟨(hP _).2 ⟨i5, m4 _⟩, ?_⟩
      rintro ⟨_, _, ho⟩
      simp only [hs] at ho
      rcases ho with ho | ho
      · omega
      · apply ho; rw [show (4 * d.1 + d.2) / 4 = d.1 by omega]; exact i1
    · obtain ⟨i1, i2, i3, i4, i5⟩ := inn d hd
      have hs := (H.mesh.adj.ok _ i3 _ i2 i4).2.2.1
      simp only [hs]
      rw [show (4 * d.1 + d.2) / 4 = d.1 by omega, show (4 * d.1 + d.2) % 4 = d.2 by omega]
  have h4 : ∑ d ∈ P, σ d = (l.map fun k => volOf c (s0.V k)).sum := by
    rw [Finset.sum_product, ← List.sum_toFinset _ H.cav.nd]
    refine Finset.sum_congr rfl fun k hk => ?_
    exact vol_fan c (H.mesh.len _ (H.cav.sub _ (List.mem_toFinset.1 hk))) ip
  have h5 := Finset.sum_filter_add_sum_filter_not P (fun d => Outer s0.A l d.1 d.2) σ
  rw [h3, add_zero] at h5
  rw [h1, h2, h5, h4]

end

end

end Mmg.Delone
