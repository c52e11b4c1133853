/-
  Collapse of an edge in 3D: the tetrahedra around the removed vertex, and one round of the loop.
-/
import Verif.ColverModel

namespace Mmg.Colver

open Mmg.Split3 Mmg.Swap23 Mmg.Shell

/-! ### The shell and its neighbours -/

section
variable {A : Nat → Nat} {V : Nat → List Nat} {used : Nat → Prop} {p q : Nat}

/-- Local number of a vertex. -/
abbrev idx (v : List Nat) (a : Nat) : Nat := Boule3.find v a

theorem idx_lt {v : List Nat} {a : Nat} (hl : v.length = 4) (ha : a ∈ v) : idx v a < 4 :=
  (Boule3.find_spec hl ha).1

theorem idx_get {v : List Nat} {a : Nat} (hl : v.length = 4) (ha : a ∈ v) :
    v.getD (idx v a) 0 = a := (Boule3.find_spec hl ha).2

theorem getD_inj {v : List Nat} (hl : v.length = 4) (hn : v.Nodup) {i j : Nat} (hi : i < 4)
    (hj : j < 4) (h : v.getD i 0 = v.getD j 0) : i = j := by
  rw [List.getD_eq_getElem _ _ (by omega), List.getD_eq_getElem _ _ (by omega)] at h
  exact (List.Nodup.getElem_inj_iff hn).1 h

theorem getD_mem {v : List Nat} (hl : v.length = 4) {i : Nat} (hi : i < 4) : v.getD i 0 ∈ v := by
  rw [List.getD_eq_getElem _ _ (by omega)]
  exact List.getElem_mem _

theorem idx_eq {v : List Nat} {a i : Nat} (hl : v.length = 4) (hn : v.Nodup) (hi : i < 4)
    (h : v.getD i 0 = a) : idx v a = i := by
  have ha : a ∈ v := h ▸ getD_mem hl hi
  exact getD_inj hl hn (idx_lt hl ha) hi ((idx_get hl ha).trans h.symm)

/-- The tetrahedra around the edge. -/
def D (V : Nat → List Nat) (used : Nat → Prop) (p q k : Nat) : Prop := used k ∧ p ∈ V k ∧ q ∈ V k

/-- The other tetrahedra. -/
def O (V : Nat → List Nat) (used : Nat → Prop) (p q k : Nat) : Prop := used k ∧ ¬ D V used p q k

/-- The other one of the two faces that contain only one end of the edge. -/
def other (v : List Nat) (p q g : Nat) : Nat := if g = idx v p then idx v q else idx v p

theorem cross_iff (hm : Mesh A V used) (hnt : NoTwins A V used) {k f a : Nat} (hk : used k)
    (hf : f < 4) (hl : link A k f ≠ 0) (ha : a ∈ V k) :
    a ∈ V (link A k f / 4) ↔ (V k).getD f 0 ≠ a := by
  obtain ⟨hu, _, _, he⟩ := hm.adj.ok k hk f hf hl
  have h4 : link A k f % 4 < 4 := Nat.mod_lt _ (by decide)
  constructor
  · intro hm' he'
    have hfa := faceTri_add (hm.len _ hu) h4
    have hin : a ∈ faceTri 0 (V (link A k f / 4)) (link A k f % 4) +
        {(V (link A k f / 4)).getD (link A k f % 4) 0} := by
      rw [hfa]; exact hm'
    rcases Multiset.mem_add.1 hin with h | h
    · rw [he] at h
      have hfk := faceTri_add (hm.len _ hk) hf
      have hnd : (faceTri 0 (V k) f + {(V k).getD f 0}).Nodup := by
        rw [hfk]; exact Multiset.coe_nodup.2 (hm.nd k hk)
      have := (Multiset.nodup_add.1 hnd).2.2
      exact Multiset.disjoint_left.1 this h (by rw [he']; simp)
    · rw [Multiset.mem_singleton] at h
      exact hnt k hk f hf hl (h.symm.trans he'.symm)
  · intro hne
    exact (Boule3.cross hm hk ha hf hne hl).2

variable (hm : Mesh A V used) (hnt : NoTwins A V used) (hpq : p ≠ q)
include hm hnt hpq

theorem shell_ne {e : Nat} (he : D V used p q e) : idx (V e) p ≠ idx (V e) q := by
  intro h
  have h1 := idx_get (hm.len _ he.1) he.2.1
  have h2 := idx_get (hm.len _ he.1) he.2.2
  rw [h, h2] at h1
  exact hpq h1.symm

theorem shell_q {e : Nat} (he : D V used p q e) (hl : link A e (idx (V e) q) ≠ 0) :
    O V used p q (link A e (idx (V e) q) / 4) ∧ p ∈ V (link A e (idx (V e) q) / 4) ∧
      q ∉ V (link A e (idx (V e) q) / 4) := by
  have h4 := idx_lt (hm.len _ he.1) he.2.2
  have hg := idx_get (hm.len _ he.1) he.2.2
  have h1 := (cross_iff hm hnt he.1 h4 hl he.2.1).2 (by rw [hg]; exact hpq.symm)
  have h2 : q ∉ V (link A e (idx (V e) q) / 4) := fun h =>
    (cross_iff hm hnt he.1 h4 hl he.2.2).1 h hg
  exact ⟨⟨(hm.adj.ok e he.1 _ h4 hl).1, fun h => h2 h.2.2⟩, h1, h2⟩

theorem shell_p {e : Nat} (he : D V used p q e) (hl : link A e (idx (V e) p) ≠ 0) :
    O V used p q (link A e (idx (V e) p) / 4) ∧ p ∉ V (link A e (idx (V e) p) / 4) ∧
      q ∈ V (link A e (idx (V e) p) / 4) := by
  have h4 := idx_lt (hm.len _ he.1) he.2.1
  have hg := idx_get (hm.len _ he.1) he.2.1
  have h1 := (cross_iff hm hnt he.1 h4 hl he.2.2).2 (by rw [hg]; exact hpq)
  have h2 : p ∉ V (link A e (idx (V e) p) / 4) := fun h =>
    (cross_iff hm hnt he.1 h4 hl he.2.1).1 h hg
  exact ⟨⟨(hm.adj.ok e he.1 _ h4 hl).1, fun h => h2 h.2.1⟩, h2, h1⟩

theorem shell_in {e g : Nat} (he : D V used p q e) (hg : g < 4) (h1 : g ≠ idx (V e) p)
    (h2 : g ≠ idx (V e) q) (hl : link A e g ≠ 0) : D V used p q (link A e g / 4) := by
  have hlen := hm.len _ he.1
  refine ⟨(hm.adj.ok e he.1 _ hg hl).1, (cross_iff hm hnt he.1 hg hl he.2.1).2 ?_,
    (cross_iff hm hnt he.1 hg hl he.2.2).2 ?_⟩
  · intro h; exact h1 (idx_eq hlen (hm.nd _ he.1) hg h).symm
  · intro h; exact h2 (idx_eq hlen (hm.nd _ he.1) hg h).symm

/-- A tetrahedron that stays meets the shell by one of the two faces of the latter that are merged. -/
theorem out_shell {k f : Nat} (hk : O V used p q k) (hf : f < 4) (hl : link A k f ≠ 0)
    (hd : D V used p q (link A k f / 4)) :
    link A k f % 4 = idx (V (link A k f / 4)) p ∨ link A k f % 4 = idx (V (link A k f / 4)) q := by
  by_contra hc
  rw [not_or] at hc
  obtain ⟨_, _, hs, _⟩ := hm.adj.ok k hk.1 f hf hl
  have h4 : link A k f % 4 < 4 := Nat.mod_lt _ (by decide)
  have h1 := hm.adj.pos k hk.1
  have := shell_in hm hnt hpq hd h4 hc.1 hc.2 (by rw [hs]; omega)
  rw [hs] at this
  have e1 : (4 * k + f) / 4 = k := by omega
  rw [e1] at this
  exact hk.2 this

end

/-! ### Writing one face -/

/-- Effect of writing face `f` of tetrahedron `k`: new data `v`, orientation `o` if there is a
record. -/
structure Wr (live : Nat → Prop) (s s' : St) (k f : Nat) (v : Int × Nat) (o : Bool) : Prop where
  frame : s'.A = s.A ∧ s'.V = s.V
  xtne : ∀ j, live j → j ≠ k → s'.xt j = s.xt j ∧
    (s.xt j ≠ 0 → s'.R (s.xt j) = s.R (s.xt j))
  mono : s.xt k ≠ 0 → s'.xt k ≠ 0
  fdf : fd s' k f = v
  fdo : ∀ g, g ≠ f → fd s' k g = fd s k g
  orf : s'.xt k ≠ 0 → ori s' k f = o
  oro : s'.xt k ≠ 0 → ∀ g, g ≠ f → ori s' k g = if s.xt k = 0 then true else ori s k g
  slots : Slots live s'

/-- Writing in the record that the tetrahedron has. -/
theorem wr_own {live : Nat → Prop} {s : St} {k f : Nat} (r : Rec) (hs : Slots live s) (hk : live k)
    (hx : s.xt k ≠ 0) (hr : ∀ g, g ≠ f → r.ref g = (s.R (s.xt k)).ref g ∧
      r.ftag g = (s.R (s.xt k)).ftag g ∧ r.ori g = (s.R (s.xt k)).ori g) :
    Wr live s (setR s (s.xt k) r) k f (r.ref f, r.ftag f) (r.ori f) where
  frame := ⟨rfl, rfl⟩
  xtne := by
    intro j hj hne
    refine ⟨rfl, ?_⟩
    intro h0
    have : s.xt j ≠ s.xt k := fun h => hne (hs.1 j k hj hk h0 h)
    simp [setR, this]
  mono := fun h => h
  fdf := by simp [fd, setR, hx]
  fdo := by
    intro g hg
    obtain ⟨h1, h2, _⟩ := hr g hg
    simp [fd, setR, hx, h1, h2]
  orf := by intro _; simp [ori, setR]
  oro := by
    intro _ g hg
    rw [if_neg hx]
    simp [ori, setR, (hr g hg).2.2]
  slots := hs

/-- A tetrahedron without record takes slot `n`, used by no live tetrahedron. -/
theorem wr_new {live : Nat → Prop} {s : St} {k f n t : Nat} (px : Rec) (g : Nat) (o : Bool)
    (hs : Slots live s) (hx : s.xt k = 0) (hn : n ≠ 0) (hnt : n ≤ t) (htop : s.top ≤ t)
    (hfree : ∀ j, live j → s.xt j ≠ n) :
    Wr live s (setR (setXt { s with top := t } k n) n (freshRec f px g o)) k f (px.ref g, px.ftag g) o
      where
  frame := ⟨rfl, rfl⟩
  xtne := by
    intro j hj hne
    refine ⟨by simp [setR, setXt, hne], ?_⟩
    intro _
    simp [setR, setXt, hfree j hj]
  mono := by intro _; simp [setR, setXt, hn]
  fdf := by simp [fd, setR, setXt, freshRec, hn]
  fdo := by
    intro g' hg
    simp [fd, setR, setXt, freshRec, hn, hx, hg]
  orf := by intro _; simp [ori, setR, setXt, freshRec]
  oro := by
    intro _ g' hg
    rw [if_pos hx]
    simp [ori, setR, setXt, freshRec, hg]
  slots := by
    refine ⟨?_, ?_⟩
    · intro i j hi hj h0 he
      simp only [setR, setXt] at h0 he
      by_cases h1 : i = k
      · by_cases h2 : j = k
        · rw [h1, h2]
        · rw [if_pos h1, if_neg h2] at he
          exact absurd he.symm (hfree j hj)
      · by_cases h2 : j = k
        · rw [if_neg h1, if_pos h2] at he
          exact absurd he (hfree i hi)
        · rw [if_neg h1] at h0
          rw [if_neg h1, if_neg h2] at he
          exact hs.1 i j hi hj h0 he
    · intro i hi
      simp only [setR, setXt]
      by_cases h1 : i = k
      · rw [if_pos h1]; exact hnt
      · rw [if_neg h1]; exact (hs.2 i hi).trans htop

/-- Nothing is written. -/
theorem wr_none {live : Nat → Prop} {s : St} {k f : Nat} {o : Bool} (hs : Slots live s)
    (hx : s.xt k = 0) : Wr live s s k f (0, 0) o where
  frame := ⟨rfl, rfl⟩
  xtne := fun _ _ _ => ⟨rfl, fun _ => rfl⟩
  mono := fun h => h
  fdf := by simp [fd, hx]
  fdo := fun _ _ => rfl
  orf := fun h => absurd hx h
  oro := fun h => absurd hx h
  slots := hs

theorem slots_mono {live live' : Nat → Prop} {s : St} (h : ∀ k, live' k → live k)
    (hs : Slots live s) : Slots live' s :=
  ⟨fun i j hi hj => hs.1 i j (h i hi) (h j hj), fun i hi => hs.2 i (h i hi)⟩

/-- What is known of another tetrahedron after a write. -/
theorem Wr.fd_ne {live : Nat → Prop} {s s' : St} {k f j g : Nat} {v : Int × Nat} {o : Bool}
    (h : Wr live s s' k f v o) (hj : live j) (hne : j ≠ k) : fd s' j g = fd s j g := by
  obtain ⟨h1, h2⟩ := h.xtne j hj hne
  unfold fd
  rw [h1]
  by_cases h0 : s.xt j = 0
  · rw [if_pos h0, if_pos h0]
  · rw [if_neg h0, if_neg h0, h2 h0]

theorem Wr.ori_ne {live : Nat → Prop} {s s' : St} {k f j g : Nat} {v : Int × Nat} {o : Bool}
    (h : Wr live s s' k f v o) (hj : live j) (hne : j ≠ k) (h0 : s.xt j ≠ 0) :
    ori s' j g = ori s j g := by
  obtain ⟨h1, h2⟩ := h.xtne j hj hne
  unfold ori
  rw [h1, h2 h0]

theorem findq_spec {v : List Nat} {ip nq : Nat} (hl : v.length = 4) (hn : v.Nodup) (hip : ip < 4)
    (hne : v.getD ip 0 ≠ nq) :
    findq v ip nq = if nq ∈ v then some (idx v nq) else none := by
  by_cases hq : nq ∈ v
  · rw [if_pos hq]
    have h4 := idx_lt hl hq
    have hg := idx_get hl hq
    have hin : idx v nq ∈ [(ip + 1) % 4, (ip + 2) % 4, (ip + 3) % 4] :=
      (Boule3.three_faces hl hn hip h4).1 (by rw [hg]; exact hne.symm)
    unfold findq
    cases hf : List.find? (fun j => decide (v.getD j 0 = nq))
        [(ip + 1) % 4, (ip + 2) % 4, (ip + 3) % 4] with
    | none =>
      rw [List.find?_eq_none] at hf
      exact absurd (by simpa using hg) (hf _ hin)
    | some j =>
      have h1 := List.find?_some hf
      have h2 := List.mem_of_find?_eq_some hf
      have hj : j < 4 := by
        simp only [List.mem_cons, List.not_mem_nil, or_false] at h2
        omega
      rw [idx_eq hl hn hj (by simpa using h1)]
  · rw [if_neg hq]
    unfold findq
    rw [List.find?_eq_none]
    intro j hj
    have hj4 : j < 4 := by
      simp only [List.mem_cons, List.not_mem_nil, or_false] at hj
      omega
    intro h
    exact hq (by have := getD_mem hl hj4; rw [of_decide_eq_true h] at this; exact this)

end Mmg.Colver
