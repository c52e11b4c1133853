/-
  C62. The ball of a vertex in a tetrahedral mesh (`MMG5_boulevolp`, mmg3d/boulep_3d.c 56-100).

  Model, lemmas, then the properties.
-/
import Verif.ShellLemmas

namespace Mmg.Boule3

open Mmg.Split3 Mmg.Swap23 Mmg.Shell

/-! ### Model -/

/-- Flags of the tetrahedra and the list (in the order of the entries). -/
structure St where
  flag : Nat → Nat
  l : List Nat

inductive Res
  /-- the list is too long: return 0 -/
  | full
  /-- `assert(j<4)` fails -/
  | asrt
  | ok (s : St)

/-- `for (j=0; j<4; j++) if ( pt1->v[j] == nump ) break;`, 89-90. -/
def find (v : List Nat) (p : Nat) : Nat := ((List.range 4).find? fun j => v.getD j 0 = p).getD 4

/-- One neighbour, mmg3d/boulep_3d.c 81-95; `x` is `adja[i]`. -/
def visit (V : Nat → List Nat) (lmax base p x : Nat) (s : St) : Res :=
  if x = 0 then .ok s
  else if s.flag (x / 4) = base then .ok s
  else
    let flag := fun k => if k = x / 4 then base else s.flag k
    let j := find (V (x / 4)) p
    if 4 ≤ j then .asrt
    else if lmax - 3 < s.l.length then .full
    else .ok ⟨flag, s.l ++ [4 * (x / 4) + j]⟩

/-- The faces in the order of the loop (`i = MMG5_inxt3[i]`, three times), 80-96. -/
def visits (A : Nat → Nat) (V : Nat → List Nat) (lmax base p k : Nat) : List Nat → St → Res
  | [], s => .ok s
  | i :: is, s =>
    match visit V lmax base p (link A k i) s with
    | .ok s' => visits A V lmax base p k is s'
    | r => r

/-- `while ( cur < ilist )`, 75-98. -/
def loop (A : Nat → Nat) (V : Nat → List Nat) (lmax base p : Nat) : Nat → Nat → St → Res
  | 0, _, s => .ok s
  | fuel + 1, cur, s =>
    if cur < s.l.length then
      let x := s.l.getD cur 0
      match visits A V lmax base p (x / 4) [(x % 4 + 1) % 4, (x % 4 + 2) % 4, (x % 4 + 3) % 4] s with
      | .ok s' => loop A V lmax base p fuel (cur + 1) s'
      | r => r
    else .ok s

/-- `MMG5_boulevolp`; `base` is the new value of `mesh->base`. The list has at most `lmax - 2`
entries, so that `lmax` rounds are enough (`C62_rounds`). -/
def boulevolp (A : Nat → Nat) (V : Nat → List Nat) (lmax base : Nat) (flag : Nat → Nat)
    (start ip : Nat) : Res :=
  loop A V lmax base ((V start).getD ip 0) lmax 0
    ⟨fun k => if k = start then base else flag k, [4 * start + ip]⟩

/-! ### Specification -/

/-- `k'` is the neighbour of `k` by a face that contains the vertex `p`. -/
def NbrP (A : Nat → Nat) (V : Nat → List Nat) (p k k' : Nat) : Prop :=
  ∃ f, f < 4 ∧ (V k).getD f 0 ≠ p ∧ link A k f ≠ 0 ∧ k' = link A k f / 4

/-- Ball of vertex `ip` of `start`: reached through faces that contain this vertex. -/
def InBall (A : Nat → Nat) (V : Nat → List Nat) (start ip k : Nat) : Prop :=
  Relation.ReflTransGen (NbrP A V ((V start).getD ip 0)) start k

/-! ### Lemmas -/

section
variable {A : Nat → Nat} {V : Nat → List Nat} {used : Nat → Prop}

theorem find_spec {v : List Nat} {p : Nat} (hl : v.length = 4) (hp : p ∈ v) :
    find v p < 4 ∧ v.getD (find v p) 0 = p := by
  match v, hl with
  | [a, b, c, d], _ =>
    have R4 : List.range 4 = [0, 1, 2, 3] := rfl
    by_cases h0 : a = p
    · subst h0; simp [find, R4, List.find?]
    · by_cases h1 : b = p
      · subst h1; simp [find, R4, List.find?, h0]
      · by_cases h2 : c = p
        · subst h2; simp [find, R4, List.find?, h0, h1]
        · have h3 : d = p := by
            simp only [List.mem_cons, List.not_mem_nil, or_false] at hp
            rcases hp with h | h | h | h
            · exact absurd h.symm h0
            · exact absurd h.symm h1
            · exact absurd h.symm h2
            · exact h.symm
          subst h3; simp [find, R4, List.find?, h0, h1, h2]

/-- A vertex of a tetrahedron other than vertex `f` is on face `f`. -/
theorem mem_face_of {v : List Nat} {f p : Nat} (hl : v.length = 4) (hf : f < 4) (hp : p ∈ v)
    (hne : v.getD f 0 ≠ p) : p ∈ faceTri 0 v f := by
  match v, hl with
  | [a, b, c, d], _ =>
    simp only [List.mem_cons, List.not_mem_nil, or_false] at hp
    interval_cases f <;> simp [faceTri, others] at hne ⊢ <;>
      rcases hp with rfl | rfl | rfl | rfl <;> simp_all

/-- Crossing a face that contains `p`. -/
theorem cross (hm : Mesh A V used) {p k f : Nat} (hk : used k) (hp : p ∈ V k) (hf : f < 4)
    (hne : (V k).getD f 0 ≠ p) (hl : link A k f ≠ 0) :
    used (link A k f / 4) ∧ p ∈ V (link A k f / 4) := by
  obtain ⟨hu, _, _, he⟩ := hm.adj.ok k hk f hf hl
  refine ⟨hu, ?_⟩
  have := mem_face_of (hm.len k hk) hf hp hne
  rw [← he] at this
  exact mem_of_face (hm.len _ hu) (Nat.mod_lt _ (by decide)) this

/-- Invariant of the search. -/
structure Inv (A : Nat → Nat) (V : Nat → List Nat) (used : Nat → Prop) (lmax base start p : Nat)
    (flag0 : Nat → Nat) (s : St) : Prop where
  nd : (s.l.map (· / 4)).Nodup
  ent : ∀ x ∈ s.l, used (x / 4) ∧ (V (x / 4)).getD (x % 4) 0 = p ∧ p ∈ V (x / 4) ∧
    Relation.ReflTransGen (NbrP A V p) start (x / 4)
  flag : ∀ k, s.flag k = base ↔ k ∈ s.l.map (· / 4)
  keep : ∀ k, k ∉ s.l.map (· / 4) → s.flag k = flag0 k
  len : s.l.length ≤ lmax - 2

/-- What a part of the search gives. -/
def Good (A : Nat → Nat) (V : Nat → List Nat) (used : Nat → Prop) (lmax base start p : Nat)
    (flag0 : Nat → Nat) (s : St) (P : St → Prop) : Res → Prop
  | .asrt => False
  | .full => ∃ L : List Nat, L.Nodup ∧ L.length = lmax - 1 ∧
      ∀ k ∈ L, Relation.ReflTransGen (NbrP A V p) start k
  | .ok s' => Inv A V used lmax base start p flag0 s' ∧ (∃ t, s'.l = s.l ++ t) ∧ P s'

theorem visit_good (hm : Mesh A V used) {lmax base start p : Nat} {flag0 : Nat → Nat} {s : St}
    (hlm : 3 ≤ lmax)
    (h : Inv A V used lmax base start p flag0 s) {k f : Nat} (hk : used k) (hp : p ∈ V k)
    (hr : Relation.ReflTransGen (NbrP A V p) start k) (hf : f < 4) (hne : (V k).getD f 0 ≠ p) :
    Good A V used lmax base start p flag0 s
      (fun s' => link A k f ≠ 0 → link A k f / 4 ∈ s'.l.map (· / 4))
      (visit V lmax base p (link A k f) s) := by
  unfold visit
  by_cases h0 : link A k f = 0
  · rw [if_pos h0]
    exact ⟨h, ⟨[], by simp⟩, fun hh => absurd h0 hh⟩
  · rw [if_neg h0]
    by_cases h1 : s.flag (link A k f / 4) = base
    · rw [if_pos h1]
      exact ⟨h, ⟨[], by simp⟩, fun _ => (h.flag _).1 h1⟩
    · rw [if_neg h1]
      obtain ⟨hu, hpv⟩ := cross hm hk hp hf hne h0
      obtain ⟨hj, hv⟩ := find_spec (hm.len _ hu) hpv
      have hr' : Relation.ReflTransGen (NbrP A V p) start (link A k f / 4) :=
        hr.tail ⟨f, hf, hne, h0, rfl⟩
      have hnot : link A k f / 4 ∉ s.l.map (· / 4) := fun hc => h1 ((h.flag _).2 hc)
      simp only
      rw [if_neg (by omega)]
      by_cases h2 : lmax - 3 < s.l.length
      · rw [if_pos h2]
        refine ⟨(link A k f / 4) :: s.l.map (· / 4), ?_, ?_, ?_⟩
        · exact List.nodup_cons.2 ⟨hnot, h.nd⟩
        · have := h.len
          simp only [List.length_cons, List.length_map]
          omega
        · intro q hq
          rcases List.mem_cons.1 hq with rfl | hq
          · exact hr'
          · obtain ⟨x, hx, rfl⟩ := List.mem_map.1 hq
            exact (h.ent x hx).2.2.2
      · rw [if_neg h2]
        generalize link A k f / 4 = q at *
        have e1 : (4 * q + find (V q) p) / 4 = q := by omega
        have e2 : (4 * q + find (V q) p) % 4 = find (V q) p := by omega
        have em : (s.l ++ [4 * q + find (V q) p]).map (· / 4) = s.l.map (· / 4) ++ [q] := by
          simp [e1]
        refine ⟨⟨?_, ?_, ?_, ?_, ?_⟩, ⟨_, rfl⟩, ?_⟩
        · rw [em]
          rw [List.nodup_append]
          refine ⟨h.nd, by simp, ?_⟩
          intro a ha b hb
          rw [List.mem_singleton] at hb
          subst hb
          intro e
          subst e
          exact hnot ha
        · intro x hx
          rcases List.mem_append.1 hx with hx | hx
          · exact h.ent x hx
          · rw [List.mem_singleton] at hx
            subst hx
            rw [e1, e2]
            exact ⟨hu, hv, hpv, hr'⟩
        · intro q'
          rw [em]
          by_cases hq : q' = q
          · subst hq; simp
          · simp only [hq, if_false, List.mem_append, List.mem_singleton, or_false]
            exact h.flag q'
        · intro q' hq'
          rw [em] at hq'
          simp only [List.mem_append, List.mem_singleton, not_or] at hq'
          simp only [hq'.2, if_false]
          exact h.keep q' hq'.1
        · simp only [List.length_append, List.length_singleton]
          omega
        · intro _
          rw [em]
          simp

theorem visits_good (hm : Mesh A V used) {lmax base start p : Nat} {flag0 : Nat → Nat}
    (hlm : 3 ≤ lmax) {k : Nat} (hk : used k) (hp : p ∈ V k)
    (hr : Relation.ReflTransGen (NbrP A V p) start k) : ∀ (fs : List Nat),
    (∀ f ∈ fs, f < 4 ∧ (V k).getD f 0 ≠ p) → ∀ s, Inv A V used lmax base start p flag0 s →
    Good A V used lmax base start p flag0 s
      (fun s' => ∀ f ∈ fs, link A k f ≠ 0 → link A k f / 4 ∈ s'.l.map (· / 4))
      (visits A V lmax base p k fs s) := by
  intro fs
  induction fs with
  | nil => intro _ s h; exact ⟨h, ⟨[], by simp⟩, by simp⟩
  | cons f fs ih =>
    intro hfs s h
    obtain ⟨hf, hne⟩ := hfs f (by simp)
    have h1 := visit_good hm hlm h hk hp hr hf hne
    unfold visits
    revert h1
    generalize visit V lmax base p (link A k f) s = R
    intro h1
    match R, h1 with
    | .full, h1 => exact h1
    | .ok s', ⟨h2, ⟨t, ht⟩, h3⟩ =>
      have h4 := ih (fun g hg => hfs g (by simp [hg])) s' h2
      simp only
      revert h4
      generalize visits A V lmax base p k fs s' = R'
      intro h4
      match R', h4 with
      | .full, h4 => exact h4
      | .ok s'', ⟨h5, ⟨t', ht'⟩, h6⟩ =>
        refine ⟨h5, ⟨t ++ t', by rw [ht', ht, List.append_assoc]⟩, ?_⟩
        intro g hg
        rcases List.mem_cons.1 hg with rfl | hg
        · intro hl
          have := h3 hl
          rw [ht', List.map_append, List.mem_append]
          exact .inl this
        · exact h6 g hg

/-- The faces other than the one opposite to `p`. -/
theorem three_faces {v : List Nat} {i f : Nat} (hl : v.length = 4) (hnd : v.Nodup) (hi : i < 4)
    (hf : f < 4) : (v.getD f 0 ≠ v.getD i 0 ↔ f ∈ [(i + 1) % 4, (i + 2) % 4, (i + 3) % 4]) := by
  match v, hl with
  | [a, b, c, d], _ =>
    obtain ⟨⟨n1, n2, n3, n4, n5, n6⟩, m1, m2, m3, m4, m5, m6⟩ := nodup4 hnd
    interval_cases i <;> interval_cases f <;>
      simp [n1, n2, n3, n4, n5, n6, m1, m2, m3, m4, m5, m6]

/-- The neighbours of the first `cur` entries are in the list. -/
def Closed (A : Nat → Nat) (V : Nat → List Nat) (p cur : Nat) (s : St) : Prop :=
  ∀ c < cur, c < s.l.length → ∀ k', NbrP A V p (s.l.getD c 0 / 4) k' → k' ∈ s.l.map (· / 4)

theorem loop_good (hm : Mesh A V used) {lmax base start p : Nat} {flag0 : Nat → Nat}
    (hlm : 3 ≤ lmax) : ∀ fuel cur s, Inv A V used lmax base start p flag0 s →
    Closed A V p cur s → cur ≤ s.l.length →
    Good A V used lmax base start p flag0 s
      (fun s' => ∃ c, Closed A V p c s' ∧ c ≤ s'.l.length ∧ (c = s'.l.length ∨ c = cur + fuel))
      (loop A V lmax base p fuel cur s) := by
  intro fuel
  induction fuel with
  | zero =>
    intro cur s h hc hl
    exact ⟨h, ⟨[], by simp⟩, cur, hc, hl, .inr rfl⟩
  | succ fuel ih =>
    intro cur s h hc hl
    unfold loop
    by_cases c0 : cur < s.l.length
    · rw [if_pos c0]
      have hx : s.l.getD cur 0 ∈ s.l := by
        rw [List.getD_eq_getElem _ _ c0]; exact List.getElem_mem c0
      obtain ⟨hu, hv, hpv, hr⟩ := h.ent _ hx
      have h4 : s.l.getD cur 0 % 4 < 4 := Nat.mod_lt _ (by decide)
      have h3 := fun f hf => three_faces (hm.len _ hu) (hm.nd _ hu) h4 (f := f) hf
      rw [hv] at h3
      have hg := visits_good hm hlm hu hpv hr
        [(s.l.getD cur 0 % 4 + 1) % 4, (s.l.getD cur 0 % 4 + 2) % 4, (s.l.getD cur 0 % 4 + 3) % 4]
        (by
          intro f hf
          have hf4 : f < 4 := by
            simp only [List.mem_cons, List.not_mem_nil, or_false] at hf
            omega
          exact ⟨hf4, (h3 f hf4).2 hf⟩) s h
      simp only
      revert hg
      generalize visits A V lmax base p (s.l.getD cur 0 / 4)
        [(s.l.getD cur 0 % 4 + 1) % 4, (s.l.getD cur 0 % 4 + 2) % 4,
          (s.l.getD cur 0 % 4 + 3) % 4] s = R
      intro hg
      match R, hg with
      | .full, hg => exact hg
      | .ok s', ⟨g1, ⟨t, ht⟩, g2⟩ =>
        have hget : ∀ c < s.l.length, s'.l.getD c 0 = s.l.getD c 0 := by
          intro c hc'
          rw [ht, List.getD_append _ _ _ _ hc']
        have hc' : Closed A V p (cur + 1) s' := by
          intro c hc1 hc2 k' hn
          rcases Nat.lt_succ_iff_lt_or_eq.1 hc1 with hlt | rfl
          · rw [hget c (by omega)] at hn
            have := hc c hlt (by omega) k' hn
            rw [ht, List.map_append, List.mem_append]
            exact .inl this
          · rw [hget c c0] at hn
            obtain ⟨f, hf, hne, hl', rfl⟩ := hn
            exact g2 f ((h3 f hf).1 hne) hl'
        have hl' : s'.l.length = s.l.length + t.length := by rw [ht, List.length_append]
        have := ih (cur + 1) s' g1 hc' (by omega)
        simp only
        revert this
        generalize loop A V lmax base p fuel (cur + 1) s' = R'
        intro h5
        match R', h5 with
        | .full, h5 => exact h5
        | .ok s'', ⟨k1, ⟨t', ht'⟩, c, k2, k3, k4⟩ =>
          refine ⟨k1, ⟨t ++ t', by rw [ht', ht, List.append_assoc]⟩, c, k2, k3, ?_⟩
          rcases k4 with k4 | k4
          · exact .inl k4
          · exact .inr (by omega)
    · rw [if_neg c0]
      exact ⟨h, ⟨[], by simp⟩, cur, hc, hl, .inl (by omega)⟩

theorem boulevolp_good (hm : Mesh A V used) {lmax base start ip : Nat} {flag : Nat → Nat}
    (hlm : 3 ≤ lmax) (hs : used start) (hip : ip < 4) (hfl : ∀ k, flag k ≠ base) :
    Good A V used lmax base start ((V start).getD ip 0) flag ⟨flag, [4 * start + ip]⟩
      (fun s' => Closed A V ((V start).getD ip 0) s'.l.length s')
      (boulevolp A V lmax base flag start ip) := by
  have e1 : (4 * start + ip) / 4 = start := by omega
  have e2 : (4 * start + ip) % 4 = ip := by omega
  have hi : Inv A V used lmax base start ((V start).getD ip 0) flag
      ⟨fun k => if k = start then base else flag k, [4 * start + ip]⟩ := by
    refine ⟨by simp, ?_, ?_, ?_, by simp; omega⟩
    · intro x hx
      rw [List.mem_singleton] at hx
      subst hx
      rw [e1, e2]
      refine ⟨hs, rfl, ?_, .refl⟩
      have := hm.len _ hs
      rw [List.getD_eq_getElem _ _ (by omega)]
      exact List.getElem_mem _
    · intro k
      simp only [List.map_cons, List.map_nil, List.mem_singleton, e1]
      constructor
      · intro h
        by_contra hc
        rw [if_neg hc] at h
        exact hfl k h
      · intro h; rw [if_pos h]
    · intro k hk
      simp only [List.map_cons, List.map_nil, List.mem_singleton, e1] at hk
      simp [hk]
  have := loop_good hm hlm lmax 0 _ hi (by intro c hc; omega) (by simp)
  unfold boulevolp
  revert this
  generalize loop A V lmax base ((V start).getD ip 0) lmax 0
    ⟨fun k => if k = start then base else flag k, [4 * start + ip]⟩ = R
  intro h
  match R, h with
  | .full, h => exact h
  | .ok s', ⟨h1, h2, c, h3, h4, h5⟩ =>
    refine ⟨h1, h2, ?_⟩
    have := h1.len
    have hce : c = s'.l.length := by
      rcases h5 with h5 | h5
      · exact h5
      · omega
    subst hce
    exact h3

end

/-! ## C62: the ball of a vertex -/

section
variable {A : Nat → Nat} {V : Nat → List Nat} {used : Nat → Prop}

/-- **C62.** When `MMG5_boulevolp` gives a list, it has exactly the tetrahedra reached from the given
one through faces that contain the vertex, each once, with the local number of the vertex; the list
starts with the given tetrahedron and fits; the marks tell exactly the tetrahedra of the list and the
other ones are unchanged. -/
theorem C62_ball (hm : Mesh A V used) {lmax base start ip : Nat} {flag : Nat → Nat}
    (hlm : 3 ≤ lmax) (hs : used start) (hip : ip < 4) (hfl : ∀ k, flag k ≠ base) {s : St}
    (h : boulevolp A V lmax base flag start ip = .ok s) :
    (s.l.map (· / 4)).Nodup ∧
    (∀ k, k ∈ s.l.map (· / 4) ↔ InBall A V start ip k) ∧
    (∀ x ∈ s.l, used (x / 4) ∧ (V (x / 4)).getD (x % 4) 0 = (V start).getD ip 0) ∧
    s.l.head? = some (4 * start + ip) ∧ s.l.length ≤ lmax - 2 ∧
    (∀ k, s.flag k = base ↔ InBall A V start ip k) ∧
    (∀ k, ¬ InBall A V start ip k → s.flag k = flag k) := by
  have hg := boulevolp_good hm hlm hs hip hfl
  rw [h] at hg
  obtain ⟨hi, ⟨t, ht⟩, hc⟩ := hg
  have hmem : ∀ k, k ∈ s.l.map (· / 4) ↔ InBall A V start ip k := by
    intro k
    constructor
    · intro hk
      obtain ⟨x, hx, rfl⟩ := List.mem_map.1 hk
      exact (hi.ent x hx).2.2.2
    · intro hk
      unfold InBall at hk
      induction hk with
      | refl => rw [ht]; simp; left; omega
      | tail _ hn ih =>
        obtain ⟨x, hx, rfl⟩ := List.mem_map.1 ih
        obtain ⟨c, hc1, rfl⟩ := List.getElem_of_mem hx
        refine hc c hc1 hc1 _ ?_
        rw [List.getD_eq_getElem _ _ hc1]
        exact hn
  refine ⟨hi.nd, hmem, fun x hx => ⟨(hi.ent x hx).1, (hi.ent x hx).2.1⟩, by rw [ht]; rfl, hi.len,
    fun k => (hi.flag k).trans (hmem k), fun k hk => hi.keep k (fun hc => hk ((hmem k).1 hc))⟩

/-- **C62.** No assertion fails; no list is given only when the ball has more than `lmax - 2`
tetrahedra. -/
theorem C62_no_ball (hm : Mesh A V used) {lmax base start ip : Nat} {flag : Nat → Nat}
    (hlm : 3 ≤ lmax) (hs : used start) (hip : ip < 4) (hfl : ∀ k, flag k ≠ base) :
    boulevolp A V lmax base flag start ip ≠ .asrt ∧
    (boulevolp A V lmax base flag start ip = .full →
      ∃ L : List Nat, L.Nodup ∧ lmax - 2 < L.length ∧ ∀ k ∈ L, InBall A V start ip k) := by
  have hg := boulevolp_good hm hlm hs hip hfl
  refine ⟨?_, ?_⟩
  · intro h; rw [h] at hg; exact hg
  · intro h
    rw [h] at hg
    obtain ⟨L, h1, h2, h3⟩ := hg
    exact ⟨L, h1, by omega, h3⟩

/-- **C62.** The number of rounds of the model is enough: more rounds change nothing. -/
theorem C62_rounds (hm : Mesh A V used) {lmax base start ip : Nat} {flag : Nat → Nat}
    (hlm : 3 ≤ lmax) (hs : used start) (hip : ip < 4) (hfl : ∀ k, flag k ≠ base) (n : Nat) :
    loop A V lmax base ((V start).getD ip 0) (lmax + n) 0
      ⟨fun k => if k = start then base else flag k, [4 * start + ip]⟩ =
    boulevolp A V lmax base flag start ip := by
  have key : ∀ fuel cur (s : St), (∃ s', loop A V lmax base ((V start).getD ip 0) fuel cur s =
      .ok s' ∧ s'.l.length < cur + fuel) ∨ (∀ s', loop A V lmax base ((V start).getD ip 0) fuel cur s
        ≠ .ok s') →
      loop A V lmax base ((V start).getD ip 0) (fuel + n) cur s =
        loop A V lmax base ((V start).getD ip 0) fuel cur s := by
    intro fuel
    induction fuel with
    | zero =>
      intro cur s h
      rcases h with ⟨s', h1, h2⟩ | h
      · injection h1 with h1
        subst h1
        cases n with
        | zero => rfl
        | succ n =>
          unfold loop
          rw [if_neg (by omega)]
      · exact absurd rfl (h s)
    | succ fuel ih =>
      intro cur s h
      rw [show fuel + 1 + n = (fuel + n) + 1 by omega]
      unfold loop at h ⊢
      by_cases c0 : cur < s.l.length
      · simp only [c0, if_true] at h ⊢
        revert h
        generalize visits A V lmax base ((V start).getD ip 0) (s.l.getD cur 0 / 4)
          [(s.l.getD cur 0 % 4 + 1) % 4, (s.l.getD cur 0 % 4 + 2) % 4,
            (s.l.getD cur 0 % 4 + 3) % 4] s = R
        intro h
        match R with
        | .full => rfl
        | .asrt => rfl
        | .ok s1 =>
          simp only at h ⊢
          apply ih
          rcases h with ⟨s', h1, h2⟩ | h
          · exact .inl ⟨s', h1, by omega⟩
          · exact .inr h
      · simp only [c0, if_false]
  apply key
  have hg := boulevolp_good hm hlm hs hip hfl
  unfold boulevolp at hg
  revert hg
  generalize loop A V lmax base ((V start).getD ip 0) lmax 0
    ⟨fun k => if k = start then base else flag k, [4 * start + ip]⟩ = R
  intro hg
  match R, hg with
  | .full, _ => right; intro s' h; cases h
  | .ok s, ⟨hi, _⟩ =>
    left
    have := hi.len
    exact ⟨s, rfl, by omega⟩

end

/-! ### Concrete case: three tetrahedra around the edge 1-2; all of them have vertex 1. -/

namespace Ex

def V3 : Nat → List Nat
  | 1 => [1, 2, 3, 4] | 2 => [1, 2, 4, 5] | 3 => [1, 2, 5, 3] | _ => []

def A3 : Nat → Nat
  | 3 => 4 * 2 + 3 | 4 => 4 * 3 + 2
  | 7 => 4 * 3 + 3 | 8 => 4 * 1 + 2
  | 11 => 4 * 1 + 3 | 12 => 4 * 2 + 2
  | _ => 0

example : Mesh A3 V3 (fun k => 1 ≤ k ∧ k ≤ 3) := by
  refine ⟨⟨fun k h => h.1, ?_⟩, ?_, ?_⟩
  · rintro k ⟨h1, h2⟩ f hf hl
    interval_cases k <;> interval_cases f <;>
      first | exact absurd rfl hl | exact ⟨⟨by decide, by decide⟩, by decide, by decide, by decide⟩
  · rintro k ⟨h1, h2⟩; interval_cases k <;> rfl
  · rintro k ⟨h1, h2⟩; interval_cases k <;> decide

/-- The ball of vertex 4 (index 3 of tetrahedron 1) has two tetrahedra. -/
example : (match boulevolp A3 V3 10240 1 (fun _ => 0) 1 3 with | .ok s => s.l | _ => []) = [7, 10] ∧
    (match boulevolp A3 V3 10240 1 (fun _ => 0) 1 0 with | .ok s => s.l | _ => []) = [4, 8, 12] :=
  ⟨rfl, rfl⟩

/-- Too small a list. -/
example : (match boulevolp A3 V3 4 1 (fun _ => 0) 1 0 with | .full => true | _ => false) = true := rfl

def V2 : Nat → List Nat
  | 1 => [1, 2, 3, 4] | 2 => [1, 5, 6, 7] | _ => []

/-- Two tetrahedra that share one vertex and no face: the list has only one of them. -/
theorem C62_touching : Mesh (fun _ => 0) V2 (fun k => 1 ≤ k ∧ k ≤ 2) ∧ 1 ∈ V2 1 ∧ 1 ∈ V2 2 ∧
    (match boulevolp (fun _ => 0) V2 10240 1 (fun _ => 0) 1 0 with | .ok s => s.l | _ => []) = [4] := by
  refine ⟨⟨⟨fun k h => h.1, fun k h f hf hl => absurd rfl hl⟩, ?_, ?_⟩, by decide, by decide, rfl⟩
  · rintro k ⟨h1, h2⟩; interval_cases k <;> rfl
  · rintro k ⟨h1, h2⟩; interval_cases k <;> decide

end Ex

end Mmg.Boule3
