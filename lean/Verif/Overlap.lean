/-
  C66. The local operations of the 3D remesher keep the tetrahedra apart: insertion of a vertex, edge
  collapse, 2-3 swap, vertex relocation, and any sequence of them.
-/
import Verif.OverlapOps
import Verif.Cavity
import Verif.Colver
import Verif.Swap23Props

namespace Mmg.Over

open Mmg.Split3 Mmg.Swap23 Mmg.Shell Mmg.Delone Mmg.Cavity

/-! ### Specification -/

section
variable {K : Type} [Field K] [LinearOrder K] [IsStrictOrderedRing K]

/-- A valid mesh in space: links are symmetric and join equal faces, the volumes are positive, no
point is inside of two tetrahedra. -/
structure Good (A : Nat → Nat) (V : Nat → List Nat) (used : Nat → Prop) (c : Nat → Pt K) : Prop where
  mesh : Mesh A V used
  pos : ∀ k, used k → 0 < volOf c (V k)
  apart : NoOverlap c V used

/-- The point is not outside of the faces without neighbour around vertex `p`. -/
def Within (A : Nat → Nat) (V : Nat → List Nat) (used : Nat → Prop) (c : Nat → Pt K) (p : Nat)
    (x : Pt K) : Prop :=
  ∀ k, used k → p ∈ V k → ∀ f < 4, link A k f = 0 → (V k).getD f 0 ≠ p → 0 ≤ bary c (V k) x f

/-- Every face at vertex `p` has a neighbour. -/
def Interior (A : Nat → Nat) (V : Nat → List Nat) (used : Nat → Prop) (p : Nat) : Prop :=
  ∀ k, used k → p ∈ V k → ∀ f < 4, (V k).getD f 0 ≠ p → link A k f ≠ 0

theorem within_of_interior {A : Nat → Nat} {V : Nat → List Nat} {used : Nat → Prop} {p : Nat}
    (h : Interior A V used p) (c : Nat → Pt K) (x : Pt K) : Within A V used c p x :=
  fun k hk hp f hf h0 hne => absurd h0 (h k hk hp f hf hne)

/-! ### Lemmas -/

variable {A : Nat → Nat} {V : Nat → List Nat} {used : Nat → Prop} {c : Nat → Pt K}

theorem Good.oriented (G : Good A V used c) : Oriented A V used := oriented_of G.mesh c G.pos G.apart

theorem Good.noTwins (G : Good A V used c) : Colver.NoTwins A V used := noTwins_of G.mesh c G.pos G.apart

theorem vol_bary (c : Nat → Pt K) {v : List Nat} (hl : v.length = 4) {f : Nat} (hf : f < 4) (q : Nat) :
    volOf c (v.set f q) = bary c v (c q) f := by
  match v, hl with
  | [a, b, d, e], _ => interval_cases f <;> rfl

theorem vol_bary' (c : Nat → Pt K) {v : List Nat} (hl : v.length = 4) {z : Nat} (hz : z ∉ v) {f : Nat}
    (hf : f < 4) (p0 : Pt K) : volOf (move c z p0) (v.set f z) = bary c v p0 f := by
  match v, hl with
  | [a, b, d, e], _ =>
    simp only [List.mem_cons, List.not_mem_nil, or_false, not_or] at hz
    obtain ⟨z1, z2, z3, z4⟩ := hz
    interval_cases f <;>
    · simp only [bary, volOf, List.set, List.getD_cons_zero, List.getD_cons_succ, move, Ne.symm z1, Ne.symm z2,
        Ne.symm z3, Ne.symm z4, if_true, if_false]

/-- A vertex with another position, or another vertex at this position. -/
theorem bary_moved (c : Nat → Pt K) {v : List Nat} (hl : v.length = 4) (hn : v.Nodup) {z p : Nat}
    (hz : z ∉ v) {f : Nat} (hf : f < 4) (hp : v.getD f 0 = p) (p0 x : Pt K) {i : Nat} (hi : i < 4) :
    bary (move c z p0) (v.set f z) x i = bary (move c p p0) v x i := by
  match v, hl with
  | [a, b, d, e], _ =>
    obtain ⟨⟨n1, n2, n3, n4, n5, n6⟩, m1, m2, m3, m4, m5, m6⟩ := nodup4 hn
    simp only [List.mem_cons, List.not_mem_nil, or_false, not_or] at hz
    obtain ⟨z1, z2, z3, z4⟩ := hz
    subst hp
    interval_cases f <;> interval_cases i <;>
    · simp only [bary, List.set, List.getD_cons_zero, List.getD_cons_succ, move, Ne.symm z1, Ne.symm z2,
        Ne.symm z3, Ne.symm z4, if_true, if_false, n1, n2, n3, n4, n5, n6, m1, m2, m3, m4, m5, m6]

theorem vol_moved (c : Nat → Pt K) {v : List Nat} (hl : v.length = 4) (hn : v.Nodup) {p : Nat} {f : Nat}
    (hf : f < 4) (hp : v.getD f 0 = p) (p0 : Pt K) : volOf (move c p p0) v = bary c v p0 f := by
  match v, hl with
  | [a, b, d, e], _ =>
    obtain ⟨⟨n1, n2, n3, n4, n5, n6⟩, m1, m2, m3, m4, m5, m6⟩ := nodup4 hn
    subst hp
    interval_cases f <;>
    · simp only [volOf, bary, List.getD_cons_zero, List.getD_cons_succ, move, if_true, if_false,
        n1, n2, n3, n4, n5, n6, m1, m2, m3, m4, m5, m6]

theorem vol_away (c : Nat → Pt K) {v : List Nat} (hl : v.length = 4) {p : Nat} (hp : p ∉ v) (p0 : Pt K) :
    volOf (move c p p0) v = volOf c v := by
  match v, hl with
  | [a, b, d, e], _ =>
    simp only [List.mem_cons, List.not_mem_nil, or_false, not_or] at hp
    obtain ⟨z1, z2, z3, z4⟩ := hp
    simp only [volOf, List.getD_cons_zero, List.getD_cons_succ, move, Ne.symm z1, Ne.symm z2,
        Ne.symm z3, Ne.symm z4, if_false]

theorem outside_face (hm : Mesh A V used) {l : List Nat} {p k f : Nat}
    (hall : ∀ k, used k → p ∈ V k → k ∈ l) (hk : used k) (hp : p ∈ V k) (hf : f < 4)
    (ho : link A k f = 0 ∨ link A k f / 4 ∉ l) (hne : (V k).getD f 0 ≠ p) : link A k f = 0 := by
  rcases ho with h | h
  · exact h
  · by_contra h0
    obtain ⟨u', _, _, hface⟩ := hm.adj.ok k hk f hf h0
    obtain ⟨hi, hg⟩ := Boule3.find_spec (hm.len k hk) hp
    have : (V k).getD (Boule3.find (V k) p) 0 ∈ faceTri 0 (V k) f :=
      mem_face (hm.len k hk) hi hf (fun e => hne (e ▸ hg))
    rw [hg, ← hface] at this
    exact h (hall _ u' (mem_of_face (hm.len _ u') (Nat.mod_lt _ (by decide)) this))

/-- The face in front of `p` is on the surface of the ball of `p`. -/
theorem front_outer (G : Good A V used c) {l : List Nat} {p k f : Nat} (hl : ∀ k ∈ l, used k ∧ p ∈ V k)
    (hk : k ∈ l) (hf : f < 4) (hp : (V k).getD f 0 = p) : Outer A l k f := by
  refine ⟨hk, hf, ?_⟩
  by_cases h0 : link A k f = 0
  · exact .inl h0
  · refine .inr fun h => ?_
    exact (Colver.cross_iff G.mesh G.noTwins (hl k hk).1 hf h0 (hl k hk).2).1 (hl _ h).2 hp

end

/-! ## C66 -/

section
variable {K : Type} [Field K] [LinearOrder K] [IsStrictOrderedRing K]

/-- **C66.** In a valid mesh the linked faces are seen with opposite orientations and no tetrahedron
is a copy of its neighbour (hypotheses of the other theorems on the operations). -/
theorem C66_oriented {A : Nat → Nat} {V : Nat → List Nat} {used : Nat → Prop} {c : Nat → Pt K}
    (G : Good A V used c) : Oriented A V used ∧ Colver.NoTwins A V used := ⟨G.oriented, G.noTwins⟩

/-- **C66.** Insertion of a vertex in a cavity found by the function: the mesh stays valid, the new
tetrahedra overlap neither one another nor the rest. -/
theorem C66_insert {s : Delone.St} {used : Nat → Prop} {req : Nat → Bool} {opnbdy : Bool}
    {sphere : Nat → Bool} {bad : Nat → Nat → Bool} {cap lonmax base a b ip : Nat} {shell : List Nat}
    {new : Nat → Nat} {g : Option Nat} {room : Nat → Bool} {c : Nat → Pt K}
    (G : Good s.A s.V used c)
    (H : Pre (ofSt req opnbdy s) used cap lonmax base a b shell s.flag)
    (h0 : ∀ k, used k → ∀ x ∈ s.V k, x ≠ 0) (hip : ∀ k, used k → ip ∉ s.V k)
    (hnew : ∀ n, Fresh new used n) (hbad : Sound c s.V used ip bad)
    {r : Int} {l : List Nat} {fl : Nat → Nat}
    (h : cavity (ofSt req opnbdy s) sphere bad cap lonmax base false shell s.flag = .ret r l fl)
    (hr : 0 < r) {s' : Delone.St} {n : Nat}
    (hd : delone lonmax g room new base ip l { s with flag := fl } = .done s' n) :
    Good s'.A s'.V (After used l new n) c := by
  obtain ⟨m', o', p', _⟩ := C65_insert H h0 hip hnew G.oriented G.pos G.apart hbad h hr hd
  refine ⟨m', p', ?_⟩
  have S := sit_of H h0 hip hnew h hr
  obtain ⟨_, _, hnd, hsub, _⟩ := C65_set H h hr
  obtain ⟨hsurf, _⟩ := C65_surface H h hr
  have hvis : ∀ k f, Outer s.A l k f → 0 < volOf c ((s.V k).set f ip) := fun k f hk =>
    hbad k (hsub k hk.1) f hk.2.1 (hsurf k f hk)
  obtain ⟨_, ⟨face, hN, hf⟩, hrest, _⟩ := C64_tets S hd
  have hF := hnew n
  have num : ∀ k, ∃ j, (∃ j < n, k = new j) → j < n ∧ k = new j := by
    intro k
    by_cases hk : ∃ j < n, k = new j
    · obtain ⟨j, hj⟩ := hk
      exact ⟨j, fun _ => hj⟩
    · exact ⟨0, fun h => absurd h hk⟩
  choose num hnum using num
  refine star_noOverlap G.mesh hnd hsub c (z := ip) (c ip) (fun k hk => hip k (hsub k hk)) G.pos G.apart
    ?_ (fun k => ∃ j < n, k = new j) (fun k => face (num k)) ?_ ?_ ?_
  · intro k f ho
    rw [move_self]
    exact (hvis k f ho).le
  · rintro k (⟨hk, hkl⟩ | hk) hn
    · refine ⟨hk, hkl, fun x hx => ?_⟩
      rw [(hrest k hk hkl).1] at hx
      exact hx
    · exact absurd hk hn
  · intro k hk hn
    obtain ⟨h1, h2⟩ := hnum k hn
    have ho : Outer s.A l (face (num k)).1 (face (num k)).2 := hN.mem _ h1
    refine ⟨ho, fun x hx => ?_⟩
    rw [move_self]
    have e := (hf _ h1).1
    rw [← h2] at e
    rw [← (show s'.V k = (s.V (face (num k)).1).set (face (num k)).2 ip from e)]
    exact (inside_iff (m'.len k hk) (m'.nd k hk) (p' k hk) x).1 hx
  · intro k k' _ _ hn hn' he
    obtain ⟨h1, h2⟩ := hnum k hn
    obtain ⟨h1', h2'⟩ := hnum k' hn'
    rw [h2, h2', hN.inj _ h1 _ h1' he]

/-- **C66.** Collapse of `p` on `q`: if the new tetrahedra have positive volumes and `q` is not outside
of the boundary faces at `p` (nothing to check for an interior vertex), the mesh stays valid. -/
theorem C66_collapse {tref : Nat → Int} {used : Nat → Prop} {p q : Nat} {s : Colver.St} {c : Nat → Pt K}
    (G : Good s.A s.V used c) (hfc : Colver.FaceOK tref used s) (hsl : Colver.Slots used s)
    {l : List Nat} {indq : Nat} {room : Nat → Bool} (hl : Colver.IsBall s.V used p l) (hne : l ≠ [])
    (hq : (s.V (l.headD 0 / 4)).getD indq 0 = q) (hpq : p ≠ q)
    (hw : Within s.A s.V used c p (c q))
    (hpos : ∀ k, used k → p ∈ s.V k → q ∉ s.V k →
      0 < volOf c ((s.V k).map fun a => if a = p then q else a))
    {np : Nat} {s' : Colver.St} (h : Colver.colver tref room l indq s = .done np s') :
    Good s'.A s'.V (Colver.O s.V used p q) c := by
  have hm := G.mesh
  obtain ⟨_, m', hV, _⟩ := Colver.C63_mesh hm G.noTwins hfc hsl hl hne hq hpq h
  have hnot : ∀ k, p ∉ s.V k → (s.V k).map (fun a => if a = p then q else a) = s.V k :=
    fun k hk => Colver.moved_not hk
  have p' : ∀ k, Colver.O s.V used p q k → 0 < volOf c (s'.V k) := by
    intro k hk
    rw [hV k hk]
    by_cases hpk : p ∈ s.V k
    · exact hpos k hk.1 hpk (fun hqk => hk.2 ⟨hk.1, hpk, hqk⟩)
    · rw [hnot k hpk]; exact G.pos k hk.1
  refine ⟨m', p', ?_⟩
  have hin : ∀ k ∈ l.map (· / 4), used k ∧ p ∈ s.V k := by
    intro k hk
    obtain ⟨x, hx, rfl⟩ := List.mem_map.1 hk
    obtain ⟨h1, h2⟩ := hl.ent x hx
    exact ⟨h1, h2 ▸ Colver.getD_mem (hm.len _ h1) (Nat.mod_lt _ (by decide))⟩
  have hset : ∀ k, used k → p ∈ s.V k →
      (s.V k).set (Colver.idx (s.V k) p) q = (s.V k).map fun a => if a = p then q else a :=
    fun k hk hp => Colver.set_moved (hm.len k hk) (hm.nd k hk) (Colver.idx_lt (hm.len k hk) hp)
      (Colver.idx_get (hm.len k hk) hp)
  refine star_vertex hm hl.nd (fun k hk => (hin k hk).1) c q G.pos G.apart ?_ (fun k => p ∈ s.V k)
    (fun k => (k, Colver.idx (s.V k) p)) ?_ ?_ ?_
  · intro k f ho
    obtain ⟨hk, hp⟩ := hin k ho.1
    by_cases hf : (s.V k).getD f 0 = p
    · have hi := Colver.idx_eq (hm.len k hk) (hm.nd k hk) ho.2.1 hf
      by_cases hqk : q ∈ s.V k
      · have e := Colver.idx_get (hm.len k hk) hqk
        rw [← e]
        refine (vol_twice c (hm.len k hk) ho.2.1 (Colver.idx_lt (hm.len k hk) hqk) ?_).ge
        intro e2
        rw [e2, hf] at e
        exact hpq e
      · rw [← hi, hset k hk hp]
        exact (hpos k hk hp hqk).le
    · rw [vol_bary c (hm.len k hk) ho.2.1]
      exact hw k hk hp f ho.2.1 (outside_face hm hl.all hk hp ho.2.1 ho.2.2 hf) hf
  · intro k hk hn
    refine ⟨hk.1, fun hkl => hn (hin k hkl).2, fun x hx => ?_⟩
    rw [hV k hk, hnot k hn] at hx
    exact hx
  · intro k hk hn
    refine ⟨front_outer G hin (hl.all k hk.1 hn) (Colver.idx_lt (hm.len k hk.1) hn)
      (Colver.idx_get (hm.len k hk.1) hn), fun x hx => ?_⟩
    show ∀ i < 4, 0 < bary c ((s.V k).set (Colver.idx (s.V k) p) q) x i
    rw [hset k hk.1 hn, ← hV k hk]
    exact (inside_iff (m'.len k hk) (m'.nd k hk) (p' k hk) x).1 hx
  · intro k k' _ _ _ _ he
    exact (Prod.mk.inj he).1

/-- In a valid mesh two linked tetrahedra can be swapped. -/
theorem ready_of {s : Swap23.State} {used : Nat → Prop} {c : Nat → Pt K} (G : Good s.A s.V used c)
    {k j0 iel : Nat} (hk : used k) (hj : j0 < 4) (h0 : link s.A k j0 ≠ 0) (hi : 1 ≤ iel) (hu : ¬ used iel) :
    Ready s used k j0 (link s.A k j0 / 4) (link s.A k j0 % 4) iel := by
  have hm := G.mesh
  obtain ⟨u', hne, hsym, hface⟩ := hm.adj.ok k hk j0 hj h0
  have m4 : link s.A k j0 % 4 < 4 := Nat.mod_lt _ (by decide)
  have hpos := hm.adj.pos k hk
  refine ⟨hm.adj, hj, m4, hk, by omega, hm.adj.pos _ u', hi, hu, hm.len k hk, hm.len _ u', hm.nd k hk,
    G.oriented k hk j0 hj h0, ?_, ?_⟩
  · intro h
    exact (Colver.cross_iff hm G.noTwins hk hj h0 (Colver.getD_mem (hm.len k hk) hj)).1 h rfl
  · have hd : (4 * k + j0) / 4 = k := by omega
    have hmd : (4 * k + j0) % 4 = j0 := by omega
    have h0' : link s.A (link s.A k j0 / 4) (link s.A k j0 % 4) ≠ 0 := by rw [hsym]; omega
    have := Colver.cross_iff hm G.noTwins u' m4 h0' (Colver.getD_mem (hm.len _ u') m4)
    rw [hsym, hd] at this
    exact fun h => this.1 h rfl

/-- **C66.** 2-3 swap: if the three new tetrahedra have positive volumes, the mesh stays valid. -/
theorem C66_swap {s : Swap23.State} {used : Nat → Prop} {c : Nat → Pt K} (G : Good s.A s.V used c)
    {k j0 iel : Nat} (hk : used k) (hj : j0 < 4) (h0 : link s.A k j0 ≠ 0) (hi : 1 ≤ iel) (hu : ¬ used iel) :
    ∃ cf, conf1 (s.V k) (s.V (link s.A k j0 / 4)) j0 (link s.A k j0 % 4) = some cf ∧
      ∀ room T R s', swap23 room k j0 (link s.A k j0 / 4) cf iel T R s = some s' →
        0 < volOf c (s'.V k) → 0 < volOf c (s'.V (link s.A k j0 / 4)) → 0 < volOf c (s'.V iel) →
        Good s'.A s'.V (fun q => used q ∨ q = iel) c := by
  have h := ready_of G hk hj h0 hi hu
  have hm := G.mesh
  obtain ⟨u1, hne1, hsym, hface⟩ := hm.adj.ok k hk j0 hj h0
  generalize hk1 : link s.A k j0 / 4 = k1 at *
  generalize hj1' : link s.A k j0 % 4 = j1 at *
  obtain ⟨cf, hc, hA⟩ := C58_swap_mesh h
  refine ⟨cf, hc, fun room T R s' hs' v0 v1 v2 => ?_⟩
  obtain ⟨adj', hold, _, _⟩ := hA room T R s' hs'
  obtain ⟨hc12, hj1, hP⟩ := h.pair hc
  obtain ⟨hV, _⟩ := place_VA hs'
  have e01 := hP.ne01
  have e0 := hP.ne0
  have e1 := hP.ne1
  have lt := hP.ht.lt
  have inj : ∀ i < 4, ∀ j < 4, tau0 j0 i = tau0 j0 j → i = j := hP.ht.inj
  have t0 := tau0_zero h.lt0
  have w0 : s'.V k = (s.V k).set (tau0 j0 1) ((s.V k1).getD j1 0) := by
    rw [hV, ← hj1]; exact verts_new e01 e0 e1 (m := 0) (by decide)
  have w1 : s'.V k1 = (s.V k).set (tau0 j0 2) ((s.V k1).getD j1 0) := by
    rw [hV, ← hj1]; exact verts_new e01 e0 e1 (m := 1) (by decide)
  have w2 : s'.V iel = (s.V k).set (tau0 j0 3) ((s.V k1).getD j1 0) := by
    rw [hV, ← hj1]; exact verts_new e01 e0 e1 (m := 2) (by decide)
  obtain ⟨q, hqe⟩ : ∃ q, q = (s.V k1).getD j1 0 := ⟨_, rfl⟩
  have hqk : q ∉ s.V k := by rw [hqe]; exact h.q
  have hpk1 := h.p
  rw [← hqe] at w0 w1 w2
  obtain ⟨sl, hsl⟩ : ∃ sl : Nat → Nat, sl = fun n => if n = k then 1 else if n = k1 then 2 else 3 := ⟨_, rfl⟩
  have s0 : sl k = 1 := by simp [hsl]
  have s1 : sl k1 = 2 := by simp [hsl, hne1]
  have s2 : sl iel = 3 := by
    have a : iel ≠ k := fun e => hu (e ▸ hk)
    have b : iel ≠ k1 := fun e => hu (e ▸ u1)
    simp [hsl, a, b]
  have s3 : ∀ n, 1 ≤ sl n ∧ sl n < 4 := by
    intro n; rw [hsl]; simp only; split_ifs <;> omega
  have hnew : ∀ n, (n = k ∨ n = k1 ∨ n = iel) → s'.V n = (s.V k).set (tau0 j0 (sl n)) q ∧
      0 < volOf c (s'.V n) := by
    rintro n (rfl | rfl | rfl)
    · rw [s0]; exact ⟨w0, v0⟩
    · rw [s1]; exact ⟨w1, v1⟩
    · rw [s2]; exact ⟨w2, v2⟩
  have hrest : ∀ n, (used n ∨ n = iel) → ¬ (n = k ∨ n = k1 ∨ n = iel) → used n ∧ s'.V n = s.V n := by
    intro n hn hc
    simp only [not_or] at hc
    have hun : used n := hn.resolve_right hc.2.2
    exact ⟨hun, hold n hun hc.1 hc.2.1⟩
  have nds : ∀ f < 4, ((s.V k).set f q).Nodup := by
    intro f hf
    rw [Colver.set_moved (hm.len k hk) (hm.nd k hk) hf rfl]
    exact Colver.moved_nodup (hm.nd k hk) (.inr hqk)
  have m' : Mesh s'.A s'.V (fun q => used q ∨ q = iel) := by
    refine ⟨adj', fun n hn => ?_, fun n hn => ?_⟩
    · by_cases hc : n = k ∨ n = k1 ∨ n = iel
      · rw [(hnew n hc).1, List.length_set]; exact hm.len k hk
      · rw [(hrest n hn hc).2]; exact hm.len n (hrest n hn hc).1
    · by_cases hc : n = k ∨ n = k1 ∨ n = iel
      · rw [(hnew n hc).1]; exact nds _ (lt _ (s3 n).2)
      · rw [(hrest n hn hc).2]; exact hm.nd n (hrest n hn hc).1
  have p' : ∀ n, (used n ∨ n = iel) → 0 < volOf c (s'.V n) := by
    intro n hn
    by_cases hc : n = k ∨ n = k1 ∨ n = iel
    · exact (hnew n hc).2
    · rw [(hrest n hn hc).2]; exact G.pos n (hrest n hn hc).1
  refine ⟨m', p', ?_⟩
  have sur : ∀ f < 4, f ≠ j0 → f = tau0 j0 1 ∨ f = tau0 j0 2 ∨ f = tau0 j0 3 := by
    have hj' := hj
    interval_cases j0 <;> decide
  have lkf : link s.A k j0 = 4 * k1 + j1 := h.lk
  have j14 := h.lt1
  refine star_vertex (l := [k, k1]) hm (by simpa using Ne.symm hne1)
    (by intro n hn; simp only [List.mem_cons, List.not_mem_nil, or_false] at hn; rcases hn with rfl | rfl <;> assumption)
    c q G.pos G.apart ?_ (fun n => n = k ∨ n = k1 ∨ n = iel) (fun n => (k, tau0 j0 (sl n))) ?_ ?_ ?_
  · rintro n f ⟨hn, hf, ho⟩
    simp only [List.mem_cons, List.not_mem_nil, or_false] at hn
    rcases hn with rfl | rfl
    · have hfj : f ≠ j0 := by
        rintro rfl
        rcases ho with ho | ho
        · exact h0 ho
        · rw [hk1] at ho; simp at ho
      rcases sur f hf hfj with rfl | rfl | rfl
      · rw [← w0]; exact v0.le
      · rw [← w1]; exact v1.le
      · rw [← w2]; exact v2.le
    · have hfj : f ≠ j1 := by
        rintro rfl
        rw [hsym] at ho
        have := hm.adj.pos k hk
        rcases ho with ho | ho
        · omega
        · rw [show (4 * k + j0) / 4 = k by omega] at ho; simp at ho
      rw [hqe]
      exact (vol_twice c h.len1 hf h.lt1 (Ne.symm hfj)).ge
  · intro n hn hc
    obtain ⟨a, b⟩ := hrest n hn hc
    simp only [not_or] at hc
    refine ⟨a, by simp [hc.1, hc.2.1], fun x hx => ?_⟩
    rw [b] at hx
    exact hx
  · intro n hn hc
    have hf : tau0 j0 (sl n) < 4 := lt _ (s3 n).2
    have hfj : tau0 j0 (sl n) ≠ j0 := by
      intro e
      have := inj _ (s3 n).2 0 (by decide) (e.trans t0.symm)
      have := (s3 n).1
      omega
    refine ⟨⟨by simp, hf, ?_⟩, fun x hx => ?_⟩
    · show link s.A k (tau0 j0 (sl n)) = 0 ∨ link s.A k (tau0 j0 (sl n)) / 4 ∉ [k, k1]
      by_cases hz : link s.A k (tau0 j0 (sl n)) = 0
      · exact .inl hz
      · obtain ⟨u2, hne2, _, hface2⟩ := hm.adj.ok k hk _ hf hz
        refine .inr fun hmem => ?_
        simp only [List.mem_cons, List.not_mem_nil, or_false] at hmem
        rcases hmem with e | e
        · exact hne2 e
        · apply hpk1
          rw [← e]
          refine mem_of_face (hm.len _ u2) (Nat.mod_lt (link s.A k (tau0 j0 (sl n))) (by decide)) ?_
          rw [hface2]
          exact mem_face (hm.len k hk) hj hf (Ne.symm hfj)
    · show ∀ i < 4, 0 < bary c ((s.V k).set (tau0 j0 (sl n)) q) x i
      rw [← (hnew n hc).1]
      exact (inside_iff (m'.len n hn) (m'.nd n hn) (p' n hn) x).1 hx
  · intro n n' hn hn' hc hc' he
    have := inj _ (s3 n).2 _ (s3 n').2 (Prod.mk.inj he).2
    rcases hc with rfl | rfl | rfl <;> rcases hc' with rfl | rfl | rfl <;> first | rfl | (rw [s0, s1] at this; cases this) | (rw [s1, s0] at this; cases this) | (rw [s0, s2] at this; cases this) | (rw [s2, s0] at this; cases this) | (rw [s1, s2] at this; cases this) | (rw [s2, s1] at this; cases this)

/-- **C66.** Relocation of a vertex: if its tetrahedra have positive volumes at the new position and the
position is not outside of the boundary faces at the vertex (nothing to check for an interior vertex),
the mesh stays valid. -/
theorem C66_move {A : Nat → Nat} {V : Nat → List Nat} {used : Nat → Prop} {c : Nat → Pt K}
    (G : Good A V used c) {p : Nat} {l : List Nat} (hl : Colver.IsBall V used p l) (x0 : Pt K)
    (hw : Within A V used c p x0) (hpos : ∀ k, used k → p ∈ V k → 0 < volOf (move c p x0) (V k)) :
    Good A V used (move c p x0) := by
  have hm := G.mesh
  have p' : ∀ k, used k → 0 < volOf (move c p x0) (V k) := by
    intro k hk
    by_cases hp : p ∈ V k
    · exact hpos k hk hp
    · rw [vol_away c (hm.len k hk) hp]; exact G.pos k hk
  refine ⟨hm, p', ?_⟩
  have hin : ∀ k ∈ l.map (· / 4), used k ∧ p ∈ V k := by
    intro k hk
    obtain ⟨x, hx, rfl⟩ := List.mem_map.1 hk
    obtain ⟨h1, h2⟩ := hl.ent x hx
    exact ⟨h1, h2 ▸ Colver.getD_mem (hm.len _ h1) (Nat.mod_lt _ (by decide))⟩
  obtain ⟨z, hz⟩ := exists_fresh V (l.map (· / 4))
  have ins : ∀ k, used k → ∀ x, Inside (move c p x0) (V k) x → ∀ i < 4, 0 < bary (move c p x0) (V k) x i :=
    fun k hk x => (inside_iff (hm.len k hk) (hm.nd k hk) (p' k hk) x).1
  refine star_noOverlap hm hl.nd (fun k hk => (hin k hk).1) c x0 hz G.pos G.apart ?_ (fun k => p ∈ V k)
    (fun k => (k, Colver.idx (V k) p)) ?_ ?_ ?_
  · intro k f ho
    obtain ⟨hk, hp⟩ := hin k ho.1
    rw [vol_bary' c (hm.len k hk) (hz k ho.1) ho.2.1]
    by_cases hf : (V k).getD f 0 = p
    · rw [← vol_moved c (hm.len k hk) (hm.nd k hk) ho.2.1 hf]
      exact (hpos k hk hp).le
    · exact hw k hk hp f ho.2.1 (outside_face hm hl.all hk hp ho.2.1 ho.2.2 hf) hf
  · intro k hk hn
    refine ⟨hk, fun hkl => hn (hin k hkl).2, fun x hx => ?_⟩
    rw [inside_iff (hm.len k hk) (hm.nd k hk) (G.pos k hk)]
    intro i hi
    rw [← bary_move c (hm.len k hk) hn hi x0]
    exact ins k hk x hx i hi
  · intro k hk hn
    have hkl := hl.all k hk hn
    have hi := Colver.idx_lt (hm.len k hk) hn
    refine ⟨front_outer G hin hkl hi (Colver.idx_get (hm.len k hk) hn), fun x hx i hi4 => ?_⟩
    show 0 < bary (move c z x0) ((V k).set (Colver.idx (V k) p) z) x i
    rw [bary_moved c (hm.len k hk) (hm.nd k hk) (hz k hkl) hi (Colver.idx_get (hm.len k hk) hn) x0 x hi4]
    exact ins k hk x hx i hi4
  · intro k k' _ _ _ _ he
    exact (Prod.mk.inj he).1

/-! ### Sequences of operations -/

/-- A mesh in space. -/
structure Cfg (K : Type) where
  A : Nat → Nat
  V : Nat → List Nat
  used : Nat → Prop
  c : Nat → Pt K

/-- One accepted operation of the remesher: insertion of a vertex (`MMG5_cavity_iso`,
mmg3d/delaunay_3d.c 700-835, then `MMG5_delone` 116-356), collapse (`MMG5_colver`, mmg3d/colver_3d.c),
2-3 swap (`MMG3D_swap23`, mmg3d/swap_3d.c), relocation of a vertex (mmg3d/movpt_3d.c; also the choice
of the coordinates of a vertex that is not in the mesh).  The volumes are those tested before the
operations are applied. -/
inductive Step : Cfg K → Cfg K → Prop
  | insert {s : Delone.St} {used : Nat → Prop} {req : Nat → Bool} {opnbdy : Bool}
      {sphere : Nat → Bool} {bad : Nat → Nat → Bool} {cap lonmax base a b ip : Nat} {shell : List Nat}
      {new : Nat → Nat} {g : Option Nat} {room : Nat → Bool} {c : Nat → Pt K}
      (H : Pre (ofSt req opnbdy s) used cap lonmax base a b shell s.flag)
      (h0 : ∀ k, used k → ∀ x ∈ s.V k, x ≠ 0) (hip : ∀ k, used k → ip ∉ s.V k)
      (hnew : ∀ n, Fresh new used n) (hbad : Sound c s.V used ip bad)
      {r : Int} {l : List Nat} {fl : Nat → Nat}
      (h : cavity (ofSt req opnbdy s) sphere bad cap lonmax base false shell s.flag = .ret r l fl)
      (hr : 0 < r) {s' : Delone.St} {n : Nat}
      (hd : delone lonmax g room new base ip l { s with flag := fl } = .done s' n) :
      Step ⟨s.A, s.V, used, c⟩ ⟨s'.A, s'.V, After used l new n, c⟩
  | collapse {tref : Nat → Int} {used : Nat → Prop} {p q : Nat} {s : Colver.St} {c : Nat → Pt K}
      (hfc : Colver.FaceOK tref used s) (hsl : Colver.Slots used s)
      {l : List Nat} {indq : Nat} {room : Nat → Bool} (hl : Colver.IsBall s.V used p l) (hne : l ≠ [])
      (hq : (s.V (l.headD 0 / 4)).getD indq 0 = q) (hpq : p ≠ q)
      (hw : Within s.A s.V used c p (c q))
      (hpos : ∀ k, used k → p ∈ s.V k → q ∉ s.V k →
        0 < volOf c ((s.V k).map fun a => if a = p then q else a))
      {np : Nat} {s' : Colver.St} (h : Colver.colver tref room l indq s = .done np s') :
      Step ⟨s.A, s.V, used, c⟩ ⟨s'.A, s'.V, Colver.O s.V used p q, c⟩
  | swap {s : Swap23.State} {used : Nat → Prop} {c : Nat → Pt K} {k j0 iel cf : Nat} (hk : used k)
      (hj : j0 < 4) (h0 : link s.A k j0 ≠ 0) (hi : 1 ≤ iel) (hu : ¬ used iel)
      (hcf : conf1 (s.V k) (s.V (link s.A k j0 / 4)) j0 (link s.A k j0 % 4) = some cf)
      {room : Nat → Bool} {T : Nat → Nat} {R : Nat → Int} {s' : Swap23.State}
      (h : swap23 room k j0 (link s.A k j0 / 4) cf iel T R s = some s')
      (v0 : 0 < volOf c (s'.V k)) (v1 : 0 < volOf c (s'.V (link s.A k j0 / 4))) (v2 : 0 < volOf c (s'.V iel)) :
      Step ⟨s.A, s.V, used, c⟩ ⟨s'.A, s'.V, fun q => used q ∨ q = iel, c⟩
  | move {A : Nat → Nat} {V : Nat → List Nat} {used : Nat → Prop} {c : Nat → Pt K} {p : Nat}
      {l : List Nat} (hl : Colver.IsBall V used p l) (x0 : Pt K) (hw : Within A V used c p x0)
      (hpos : ∀ k, used k → p ∈ V k → 0 < volOf (move c p x0) (V k)) :
      Step ⟨A, V, used, c⟩ ⟨A, V, used, move c p x0⟩

/-- **C66.** After any number of these operations in any order the mesh is valid: symmetric adjacency
between equal faces seen with opposite orientations, positive volumes, no overlap. -/
theorem C66_history {a b : Cfg K} (h : Relation.ReflTransGen Step a b) (G : Good a.A a.V a.used a.c) :
    Good b.A b.V b.used b.c ∧ Oriented b.A b.V b.used := by
  have key : Good b.A b.V b.used b.c := by
    induction h with
    | refl => exact G
    | tail _ hs ih =>
      cases hs with
      | insert H h0 hip hnew hbad h hr hd => exact C66_insert ih H h0 hip hnew hbad h hr hd
      | collapse hfc hsl hl hne hq hpq hw hpos h => exact C66_collapse ih hfc hsl hl hne hq hpq hw hpos h
      | swap hk hj h0 hi hu hcf h v0 v1 v2 =>
        obtain ⟨cf, h1, h2⟩ := C66_swap ih hk hj h0 hi hu
        rw [hcf] at h1
        cases h1
        exact h2 _ _ _ _ h v0 v1 v2
      | move hl x0 hw hpos => exact C66_move ih hl x0 hw hpos
  exact ⟨key, key.oriented⟩

end

/-! ### The hypotheses can hold together -/

namespace Ex

/-- The mesh of `Cavity.Ex` is valid and an insertion in it is a step. -/
example : Good Cavity.Ex.s.A Cavity.Ex.s.V Cavity.Ex.used Cavity.Ex.c ∧
    ∃ fl, cavity Cavity.Ex.m (fun _ => true) Cavity.Ex.bad 50 40 9 false [6, 12, 18] Cavity.Ex.s.flag =
      .ret 4 [1, 2, 3, 4] fl ∧
    ∀ s' n, delone 40 none (fun _ => true) Cavity.Ex.new 9 7 [1, 2, 3, 4]
        { Cavity.Ex.s with flag := fl } = .done s' n →
      Step ⟨Cavity.Ex.s.A, Cavity.Ex.s.V, Cavity.Ex.used, Cavity.Ex.c⟩
        ⟨s'.A, s'.V, After Cavity.Ex.used [1, 2, 3, 4] Cavity.Ex.new n, Cavity.Ex.c⟩ := by
  refine ⟨⟨Cavity.Ex.pre.mesh, Cavity.Ex.pos, Cavity.Ex.noOverlap⟩, ?_⟩
  obtain ⟨fl, h⟩ := Cavity.Ex.found
  refine ⟨fl, h, fun s' n hd => Step.insert Cavity.Ex.pre ?_ ?_ ?_
    (sound_iso Cavity.Ex.c (fun k hk => Cavity.Ex.pre.mesh.len k hk) 7 (by norm_num)) h (by decide) hd⟩
  · rintro k (rfl | rfl | rfl | rfl) <;> decide
  · rintro k (rfl | rfl | rfl | rfl) <;> decide
  · intro n
    exact ⟨fun j _ => by simp [Cavity.Ex.new], fun j _ => by simp [Cavity.Ex.new, Cavity.Ex.used],
      fun i _ j _ h => by simpa [Cavity.Ex.new] using h⟩

/-- A tetrahedron cut in four by an interior vertex. -/
def V : Nat → List Nat
  | 1 => [5, 2, 3, 4] | 2 => [1, 5, 3, 4] | 3 => [1, 2, 5, 4] | 4 => [1, 2, 3, 5] | _ => []

def A (n : Nat) : Nat :=
  [0, 0, 8, 12, 16, 5, 0, 13, 17, 6, 10, 0, 18, 7, 11, 15, 0].getD n 0

def s : Colver.St :=
  ⟨A, V, fun k => k, fun k => ⟨fun f => if f + 1 = k then 3 else 0, fun f => if f + 1 = k then 16 else 0,
    fun _ => true⟩, 4⟩

def U (k : Nat) : Prop := 1 ≤ k ∧ k ≤ 4

def c : Nat → Pt ℚ
  | 2 => ⟨4, 0, 0⟩ | 3 => ⟨0, 4, 0⟩ | 4 => ⟨0, 0, 4⟩ | 5 => ⟨1, 1, 1⟩ | _ => ⟨0, 0, 0⟩

theorem good : Good s.A s.V U c := by
  refine ⟨⟨⟨fun k h => h.1, ?_⟩, ?_, ?_⟩, ?_, ?_⟩
  · rintro k ⟨h1, h2⟩ f hf hl
    interval_cases k <;> interval_cases f <;>
      first | exact absurd rfl hl | exact ⟨⟨by decide, by decide⟩, by decide, by decide, by decide⟩
  · rintro k ⟨h1, h2⟩; interval_cases k <;> rfl
  · rintro k ⟨h1, h2⟩; interval_cases k <;> decide
  · rintro k ⟨h1, h2⟩; interval_cases k <;> decide +kernel
  · rintro k k' ⟨h1, h2⟩ ⟨h3, h4⟩ hne x ⟨w, hw, h1, hx, hy, hz⟩ ⟨w', hw', h1', hx', hy', hz'⟩
    interval_cases k <;> interval_cases k' <;>
    first
      | exact hne rfl
      | (simp [s, V, c] at hw h1 hx hy hz hw' h1' hx' hy' hz'
         linarith)

theorem ball : Colver.IsBall s.V U 5 [9, 4, 14, 19] := by
  refine ⟨by decide, ?_, ?_⟩
  · intro x hx
    simp only [List.mem_cons, List.not_mem_nil, or_false] at hx
    rcases hx with rfl | rfl | rfl | rfl <;> exact ⟨⟨by decide, by decide⟩, rfl⟩
  · rintro k ⟨h1, h2⟩ hk
    interval_cases k <;> decide

theorem interior : Interior s.A s.V U 5 := by
  rintro k ⟨h1, h2⟩ hk f hf hne
  interval_cases k <;> interval_cases f <;> first | exact absurd rfl hne | decide

/-- The collapse of the interior vertex on vertex 1 is a step, it leaves one tetrahedron. -/
example : Good s.A s.V U c ∧ ∃ np s', Colver.colver (fun _ => 2) (fun _ => true) [9, 4, 14, 19] 0 s = .done np s' ∧
    Step ⟨s.A, s.V, U, c⟩ ⟨s'.A, s'.V, Colver.O s.V U 5 1, c⟩ ∧ s'.V 1 = [1, 2, 3, 4] := by
  have key : (match Colver.colver (fun _ => 2) (fun _ => true) [9, 4, 14, 19] 0 s with
      | .done _ s' => decide (s'.V 1 = [1, 2, 3, 4]) | _ => false) = true := by decide +kernel
  generalize hr : Colver.colver (fun _ => 2) (fun _ => true) [9, 4, 14, 19] 0 s = R at key
  match R, hr with
  | .done np s', hr =>
    refine ⟨good, np, s', rfl, Step.collapse (q := 1) (tref := fun _ => 2) ⟨?_, ?_, ?_, ?_, ?_⟩
      ⟨fun _ _ _ _ _ h => h, fun _ h => h.2⟩ ball (by decide) (by decide) (by decide)
      (within_of_interior interior _ _) ?_ hr, of_decide_eq_true key⟩
    · rintro k ⟨h1, h2⟩ f hf
      interval_cases k <;> interval_cases f <;> decide
    · rintro k ⟨h1, h2⟩ f hf hl
      interval_cases k <;> interval_cases f <;> first | exact absurd rfl hl | rfl
    · rintro k ⟨h1, h2⟩ f hf hl
      interval_cases k <;> interval_cases f <;>
        first | exact absurd hl (by decide) | exact ⟨Colver.Ex.b16, rfl⟩
    · rintro k ⟨h1, h2⟩ f hf hl hne
      exact absurd rfl hne
    · rintro k ⟨h1, h2⟩ f hf hl
      exact ⟨fun _ => rfl, fun h => absurd h (lt_irrefl _)⟩
    · rintro k ⟨h1, h2⟩ hp hq
      interval_cases k
      · decide +kernel
      all_goals exact absurd hq (by decide)
  | .refused, _ => exact absurd key (by decide)
  | .nomem, _ => exact absurd key (by decide)
  | .asrt, _ => exact absurd key (by decide)

/-- A relocation of the interior vertex is a step. -/
example : Step ⟨s.A, s.V, U, c⟩ ⟨s.A, s.V, U, move c 5 ⟨1, 1, 1 / 2⟩⟩ := by
  refine Step.move ball _ (within_of_interior interior _ _) ?_
  rintro k ⟨h1, h2⟩ -
  interval_cases k <;> decide +kernel

def c2 : Nat → Pt ℚ
  | 1 => ⟨0, 0, -1⟩ | 2 => ⟨1, 0, 0⟩ | 3 => ⟨0, 1, 0⟩ | 4 => ⟨-1, -1, 0⟩ | 5 => ⟨0, 0, 1⟩ | _ => ⟨0, 0, 0⟩

theorem good2 : Good exS.A exS.V (fun q => q = 1 ∨ q = 2) c2 := by
  refine ⟨⟨exS_ready.adj, ?_, ?_⟩, ?_, ?_⟩
  · rintro k (rfl | rfl) <;> rfl
  · rintro k (rfl | rfl) <;> decide
  · rintro k (rfl | rfl) <;> decide +kernel
  · rintro k k' (rfl | rfl) (rfl | rfl) hne x ⟨w, hw, h1, hx, hy, hz⟩ ⟨w', hw', h1', hx', hy', hz'⟩ <;>
    first
      | exact hne rfl
      | (simp [exS, c2] at hw h1 hx hy hz hw' h1' hx' hy' hz'
         linarith)

/-- The swap of two tetrahedra is a step. -/
example : Good exS.A exS.V (fun q => q = 1 ∨ q = 2) c2 ∧
    ∃ s', swap23 (fun _ => true) 1 0 2 0 3 (fun _ => 0) (fun _ => 0) exS = some s' ∧
    Step ⟨exS.A, exS.V, fun q => q = 1 ∨ q = 2, c2⟩ ⟨s'.A, s'.V, fun q => (q = 1 ∨ q = 2) ∨ q = 3, c2⟩ := by
  have key : (match swap23 (fun _ => true) 1 0 2 0 3 (fun _ => 0) (fun _ => 0) exS with
      | some s' => decide (0 < volOf c2 (s'.V 1)) && (decide (0 < volOf c2 (s'.V 2)) &&
        decide (0 < volOf c2 (s'.V 3))) | none => false) = true := by decide +kernel
  generalize hr : swap23 (fun _ => true) 1 0 2 0 3 (fun _ => 0) (fun _ => 0) exS = R at key
  match R, hr with
  | some s', hr =>
    simp only [Bool.and_eq_true, decide_eq_true_eq] at key
    exact ⟨good2, s', rfl, Step.swap (k := 1) (j0 := 0) (cf := 0) (.inl rfl) (by decide) (by decide)
      (by decide) (by decide) (by decide) hr key.1 key.2.1 key.2.2⟩

/-- Two tetrahedra that do not touch. -/
def V3 : Nat → List Nat
  | 1 => [1, 2, 3, 4] | 2 => [5, 6, 7, 8] | _ => []

def c3 : Nat → Pt ℚ
  | 2 => ⟨4, 0, 0⟩ | 3 => ⟨0, 4, 0⟩ | 4 => ⟨0, 0, 4⟩ | 5 => ⟨0, 0, 10⟩ | 6 => ⟨0, 4, 10⟩ | 7 => ⟨4, 0, 10⟩
  | 8 => ⟨1, 1, 9⟩ | _ => ⟨0, 0, 0⟩

/-- **C66.** The condition on the boundary faces is needed: for a boundary vertex positive volumes do
not prevent that its tetrahedra are moved into other ones. -/
theorem C66_boundary_needed :
    ∃ (A : Nat → Nat) (V : Nat → List Nat) (used : Nat → Prop) (c : Nat → Pt ℚ) (x0 : Pt ℚ),
      Good A V used c ∧ Colver.IsBall V used 8 [11] ∧
      (∀ k, used k → 8 ∈ V k → 0 < volOf (move c 8 x0) (V k)) ∧ ¬ NoOverlap (move c 8 x0) V used := by
  refine ⟨fun _ => 0, V3, fun k => k = 1 ∨ k = 2, c3, ⟨1, 1, -5⟩, ⟨⟨⟨?_, ?_⟩, ?_, ?_⟩, ?_, ?_⟩,
    ⟨by decide, ?_, ?_⟩, ?_, ?_⟩
  · rintro k (rfl | rfl) <;> decide
  · rintro k (rfl | rfl) i hi h0 <;> exact absurd rfl h0
  · rintro k (rfl | rfl) <;> rfl
  · rintro k (rfl | rfl) <;> decide
  · rintro k (rfl | rfl) <;> decide +kernel
  · rintro k k' (rfl | rfl) (rfl | rfl) hne x ⟨w, hw, h1, hx, hy, hz⟩ ⟨w', hw', h1', hx', hy', hz'⟩ <;>
    first
      | exact hne rfl
      | (simp [V3, c3] at hw h1 hx hy hz hw' h1' hx' hy' hz'
         linarith)
  · intro x hx
    rw [List.mem_singleton] at hx
    subst hx
    exact ⟨.inr rfl, rfl⟩
  · rintro k (rfl | rfl) hk
    · exact absurd hk (by decide)
    · decide
  · rintro k (rfl | rfl) hk
    · exact absurd hk (by decide)
    · decide +kernel
  · intro h
    refine h 1 2 (.inl rfl) (.inr rfl) (by decide) ⟨1, 1, 1⟩ ⟨fun _ => 1 / 4, ?_, ?_, ?_, ?_, ?_⟩
      ⟨fun n => if n = 5 then 1 / 5 else if n = 8 then 3 / 5 else 1 / 10, ?_, ?_, ?_, ?_, ?_⟩
    all_goals simp [V3, c3, move] <;> norm_num

end Ex

end Mmg.Over
