/-
  C86. Swapping an edge inside of a tetrahedral mesh (`MMG5_chkswpgen` and `MMG5_swpgen`): statements and cases.
-/
import Verif.SwpgProps

namespace Mmg.Swpg

open Mmg.Split3 hiding bary
open Mmg.Swap23 Mmg.Shell Mmg.Over
open Mmg.Spl1b (In Round Pre After proj getD_inj split1b)

section
variable {K : Type} [Field K] [LinearOrder K] [IsStrictOrderedRing K]

/-- The result of the swap of edge `na nb`: `s` before, `s'` after; `l` is the list of the tetrahedra around the edge, `q`
the vertex chosen among those around the edge, `new` the numbers of the new tetrahedra, `tref'` the references after. -/
structure Swapped (E : Env K) (s : State) (s' : Colver.St) (used : Nat → Prop) (c : Nat → Pt K) (crit : K)
    (na nb ip q : Nat) (l : List Nat) (new : Nat → Nat) (tref' : Nat → Int) (k0 : Nat) : Prop where
  lt : k0 < l.length
  /-- The chosen vertex is in two consecutive tetrahedra around the edge. -/
  only : ∀ j < l.length, q ∈ s.V (l.getD j 0 / 6) ↔ j = k0 ∨ j = (k0 + 1) % l.length
  /-- These two disappear, the other ones around the edge give two. The result is valid. -/
  good : Good s'.A s'.V (Left l new k0 used) c
  faces : Colver.FaceOK tref' (Left l new k0 used) s'
  slots : Colver.Slots (Left l new k0 used) s'
  refs : (∀ e, used e → tref' e = E.tref e) ∧ ∀ j < l.length, tref' (new j) = E.tref (l.getD j 0 / 6)
  rest : ∀ e, used e → (∀ j < l.length, e ≠ l.getD j 0 / 6) → s'.V e = s.V e
  /-- One has the chosen vertex instead of `na`, the other one instead of `nb`. -/
  two : ∀ j < l.length, j ≠ k0 → j ≠ (k0 + 1) % l.length → ∃ a b, a < 4 ∧ b < 4 ∧
    (s.V (l.getD j 0 / 6)).getD a 0 = na ∧ (s.V (l.getD j 0 / 6)).getD b 0 = nb ∧
    (s'.V (l.getD j 0 / 6) = (s.V (l.getD j 0 / 6)).set a q ∧ s'.V (new j) = (s.V (l.getD j 0 / 6)).set b q ∨
      s'.V (l.getD j 0 / 6) = (s.V (l.getD j 0 / 6)).set b q ∧ s'.V (new j) = (s.V (l.getD j 0 / 6)).set a q)
  /-- The new tetrahedra are better than the worst one before by the factor `crit`. -/
  better : ∃ w < l.length, (∀ m < l.length, E.qual (l.getD w 0 / 6) ≤ E.qual (l.getD m 0 / 6)) ∧
    ∀ j < l.length, j ≠ k0 → j ≠ (k0 + 1) % l.length → ∀ e, e = l.getD j 0 / 6 ∨ e = new j →
      crit * E.qual (l.getD w 0 / 6) < E.cal (s'.V e)
  /-- The vertex used for the swap is gone. -/
  temp : ∀ e, Left l new k0 used e → ip ∉ s'.V e

variable {E : Env K} {s : State} {used : Nat → Prop} {c : Nat → Pt K} {crit : K} {l : List Nat}
  {new : Nat → Nat} {ip lmax base : Nat} {flag : Nat → Nat} {start ia nconf : Nat} {room : Nat → Bool}

/-- **C86.** When `MMG5_chkswpgen` has accepted a configuration, no assertion fails in the swap and the new vertex is not
left in the mesh; the only failure is the refusal of memory for a boundary record. -/
theorem C86_safe (hs : used start) (hia : ia < 6) (h : chkswpgen E crit lmax start ia = .conf nconf l)
    (W : World E s used c crit (ends (s.V start) ia).1 (ends (s.V start) ia).2 l new ip lmax base flag) :
    swpgen E.tref room lmax base flag new ip nconf l s ≠ .asrt ∧
    (∀ s1, swpgen E.tref room lmax base flag new ip nconf l s ≠ .lost s1) ∧
    (swpgen E.tref room lmax base flag new ip nconf l s = .nomem → ∃ n, room n = false) := by
  obtain ⟨cc, k0, P, C, _⟩ := chkswpgen_spec (used := used) (by rw [W.A, W.V]; exact W.good.mesh) hs hia h
  rw [W.V] at C
  rcases W.core C room with ⟨h1, h2⟩ | ⟨s', h1, _⟩ <;> rw [h1]
  · exact ⟨by simp, by simp, fun _ => h2⟩
  · exact ⟨by simp, by simp, by simp⟩

/-- **C86.** The swap replaces the `n` tetrahedra around the edge by `2 (n - 2)` tetrahedra: a valid mesh in space (links are
symmetric and join equal faces, volumes are positive, no overlap) with right boundary data, and better than the worst
tetrahedron around the edge. -/
theorem C86_swap (hs : used start) (hia : ia < 6) (h : chkswpgen E crit lmax start ia = .conf nconf l)
    (W : World E s used c crit (ends (s.V start) ia).1 (ends (s.V start) ia).2 l new ip lmax base flag) {s' : Colver.St}
    (hd : swpgen E.tref room lmax base flag new ip nconf l s = .done s') :
    ∃ k0, Swapped E s s' used c crit (ends (s.V start) ia).1 (ends (s.V start) ia).2 ip
      ((s.V (nconf / 4)).getD (nconf % 4) 0) l new (refs (inOf l new ip) E.tref) k0 := by
  obtain ⟨cc, k0, P, C, _⟩ := chkswpgen_spec (used := used) (by rw [W.A, W.V]; exact W.good.mesh) hs hia h
  rw [W.V] at C
  have hq : (s.V (nconf / 4)).getD (nconf % 4) 0 = vtx E nconf := by unfold vtx; rw [W.V]
  rw [hq]
  generalize (ends (s.V start) ia).1 = na at *
  generalize (ends (s.V start) ia).2 = nb at *
  rcases W.core C room with ⟨h1, _⟩ | ⟨s2, h1, g, f1, f2, r1, r2⟩
  · rw [hd] at h1; cases h1
  rw [hd] at h1
  cases h1
  have H := W.pre C
  obtain ⟨n1, n2, n3, n4, n5, n6, n7, n8⟩ := W.np C
  refine ⟨k0, C.lt, ?_, g, f1, f2, refs_spec W.fresh C.round.used _, r1, ?_, ?_, ?_⟩
  · intro j hj
    constructor
    · intro hm
      by_contra hc
      rw [not_or] at hc
      exact W.np_not C hj hc.1 hc.2 hm
    · rintro (rfl | rfl)
      · exact n4
      · exact n5
  · intro j hj j1 j2
    have T := H.tet hj
    have v1 := r2 j hj j1 j2 _ _ (.inl ⟨rfl, rfl⟩)
    have v2 := r2 j hj j1 j2 _ _ (.inr ⟨rfl, rfl⟩)
    have l0 := T.perm.lt 0 (by decide)
    have l1 := T.perm.lt 1 (by decide)
    rcases T.ends with ⟨e0, e1⟩ | ⟨e0, e1⟩
    · exact ⟨_, _, l0, l1, e0, e1, .inr ⟨v1, v2⟩⟩
    · exact ⟨_, _, l1, l0, e1, e0, .inl ⟨v1, v2⟩⟩
  · obtain ⟨w, hw, he⟩ := C.worst
    refine ⟨w, hw, fun m hm => he ▸ C.low m hm, fun j hj j1 j2 e hh => ?_⟩
    rw [← he]
    have : ∃ i, Part (inOf l new ip) j e i := by
      rcases hh with hh | hh
      · exact ⟨_, .inl ⟨hh, rfl⟩⟩
      · exact ⟨_, .inr ⟨hh, rfl⟩⟩
    obtain ⟨i, hp⟩ := this
    rw [r2 j hj j1 j2 e i hp]
    exact (W.pos C hj j1 j2 hp).2.1
  · rintro e (⟨hu, hn⟩ | ⟨j, hj, j1, j2, hh⟩) hc
    · rw [r1 e hu hn] at hc
      exact W.ip e hu hc
    · have : ∃ i, Part (inOf l new ip) j e i := by
        rcases hh with hh | hh
        · exact ⟨_, .inl ⟨hh, rfl⟩⟩
        · exact ⟨_, .inr ⟨hh, rfl⟩⟩
      obtain ⟨i, hp⟩ := this
      rw [r2 j hj j1 j2 e i hp] at hc
      rcases List.mem_or_eq_of_mem_set hc with hc | hc
      · exact W.ip _ (C.round.used j hj) hc
      · exact n3 hc.symm

/-- **C86.** No tetrahedron of the result that comes from the ones around the edge has the edge. -/
theorem C86_edge_gone (hs : used start) (hia : ia < 6) (h : chkswpgen E crit lmax start ia = .conf nconf l)
    (W : World E s used c crit (ends (s.V start) ia).1 (ends (s.V start) ia).2 l new ip lmax base flag) {s' : Colver.St}
    (hd : swpgen E.tref room lmax base flag new ip nconf l s = .done s') :
    ∃ k0, Good s'.A s'.V (Left l new k0 used) c ∧
      ∀ j < l.length, j ≠ k0 → j ≠ (k0 + 1) % l.length → ∀ e, e = l.getD j 0 / 6 ∨ e = new j →
        ¬ ((ends (s.V start) ia).1 ∈ s'.V e ∧ (ends (s.V start) ia).2 ∈ s'.V e) := by
  obtain ⟨k0, S⟩ := C86_swap hs hia h W hd
  have np := fun j (hj : j < l.length) => (S.only j hj)
  refine ⟨k0, S.good, fun j hj j1 j2 e he hc => ?_⟩
  obtain ⟨cc, k1, P, C, _⟩ := chkswpgen_spec (used := used) (by rw [W.A, W.V]; exact W.good.mesh) hs hia h
  rw [W.V] at C
  have hq : (s.V (nconf / 4)).getD (nconf % 4) 0 = vtx E nconf := by unfold vtx; rw [W.V]
  rw [hq] at S
  generalize (ends (s.V start) ia).1 = na at *
  generalize (ends (s.V start) ia).2 = nb at *
  obtain ⟨n1, n2, _⟩ := W.np C
  have hu := C.round.used j hj
  have hl := W.good.mesh.len _ hu
  have hnd := W.good.mesh.nd _ hu
  have key : ∀ i < 4, ∀ x, (s.V (l.getD j 0 / 6)).getD i 0 = x → x ≠ vtx E nconf →
      x ∉ (s.V (l.getD j 0 / 6)).set i (vtx E nconf) := by
    intro i hi x hx hne hm
    obtain ⟨m, hm4, he⟩ := List.getElem_of_mem hm
    rw [List.length_set, hl] at hm4
    have he' : ((s.V (l.getD j 0 / 6)).set i (vtx E nconf)).getD m 0 = x := by
      rw [List.getD_eq_getElem _ _ (by rw [List.length_set, hl]; exact hm4)]; exact he
    by_cases hmi : i = m
    · subst hmi
      rw [getD_set_eq hl hi] at he'
      exact hne he'.symm
    · rw [getD_set_ne hmi] at he'
      exact hmi (getD_inj hl hnd hi hm4 (hx.trans he'.symm))
  obtain ⟨a, b, ha, hb, ea, eb, hv⟩ := S.two j hj j1 j2
  have ka := key a ha _ ea (Ne.symm n1)
  have kb := key b hb _ eb (Ne.symm n2)
  rcases he with rfl | rfl <;> rcases hv with ⟨v1, v2⟩ | ⟨v1, v2⟩
  · rw [v1] at hc; exact ka hc.1
  · rw [v1] at hc; exact kb hc.2
  · rw [v2] at hc; exact kb hc.2
  · rw [v2] at hc; exact ka hc.1

/-- **C86.** In finite element mode the swap creates no edge between two boundary vertices: two boundary vertices that are
in one tetrahedron after the swap were in one before. -/
theorem C86_fem (hs : used start) (hia : ia < 6) (h : chkswpgen E crit lmax start ia = .conf nconf l)
    (W : World E s used c crit (ends (s.V start) ia).1 (ends (s.V start) ia).2 l new ip lmax base flag) {s' : Colver.St}
    (hd : swpgen E.tref room lmax base flag new ip nconf l s = .done s') (hf : E.fem = true) :
    ∃ k0, Good s'.A s'.V (Left l new k0 used) c ∧
      ∀ e, Left l new k0 used e → ∀ u ∈ s'.V e, ∀ w ∈ s'.V e, u ≠ w → E.pbdy u = true → E.pbdy w = true →
        ∃ e0, used e0 ∧ u ∈ s.V e0 ∧ w ∈ s.V e0 := by
  obtain ⟨cc, k0, P, C, _⟩ := chkswpgen_spec (used := used) (by rw [W.A, W.V]; exact W.good.mesh) hs hia h
  rw [W.V] at C
  generalize (ends (s.V start) ia).1 = na at *
  generalize (ends (s.V start) ia).2 = nb at *
  rcases W.core C room with ⟨h1, _⟩ | ⟨s2, h1, g, f1, f2, r1, r2⟩
  · rw [hd] at h1; cases h1
  rw [hd] at h1
  cases h1
  have H := W.pre C
  obtain ⟨n1, n2, n3, n4, n5, n6, n7, n8⟩ := W.np C
  refine ⟨k0, g, ?_⟩
  have hpos : 0 < l.length := by have := C.lt; omega
  have hk1 : (k0 + 1) % l.length < l.length := Nat.mod_lt _ hpos
  have ends_in : ∀ j < l.length, na ∈ s.V (l.getD j 0 / 6) ∧ nb ∈ s.V (l.getD j 0 / 6) := by
    intro j hj
    have T := H.tet hj
    have m0 : (s.V (l.getD j 0 / 6)).getD ((inOf l new ip).t j 0) 0 ∈ s.V (l.getD j 0 / 6) :=
      mem_getD T.len (T.perm.lt 0 (by decide))
    have m1 : (s.V (l.getD j 0 / 6)).getD ((inOf l new ip).t j 1) 0 ∈ s.V (l.getD j 0 / 6) :=
      mem_getD T.len (T.perm.lt 1 (by decide))
    rcases T.ends with ⟨e0, e1⟩ | ⟨e0, e1⟩
    · exact ⟨e0 ▸ m0, e1 ▸ m1⟩
    · exact ⟨e1 ▸ m1, e0 ▸ m0⟩
  -- the other vertices of a tetrahedron around the edge
  have poly : ∀ j < l.length, ∃ m < l.length, (m + 1) % l.length = j ∧ ∀ w ∈ s.V (l.getD j 0 / 6), w ≠ na → w ≠ nb →
      w = vtx E (P j) ∨ w = vtx E (P m) := by
    intro j hj
    obtain ⟨m, hm, hmj⟩ : ∃ m < l.length, (m + 1) % l.length = j := by
      by_cases h0 : j = 0
      · refine ⟨l.length - 1, by omega, ?_⟩
        rw [show l.length - 1 + 1 = l.length by omega, Nat.mod_self, h0]
      · refine ⟨j - 1, by omega, ?_⟩
        rw [show j - 1 + 1 = j by omega, Nat.mod_eq_of_lt hj]
    refine ⟨m, hm, hmj, fun w hw wa wb => ?_⟩
    have T := H.tet hj
    obtain ⟨a1, a2, _, _⟩ := C.pol j hj
    obtain ⟨b1, b2, b3, b4⟩ := C.pol m hm
    rw [hmj] at b3 b4
    rw [W.V] at a2 b2 b3
    rw [a1] at a2
    have ea : vtx E (P j) = (s.V (l.getD j 0 / 6)).getD (P j % 4) 0 := by unfold vtx; rw [W.V, a1]
    have eb1 : vtx E (P m) ≠ na := by unfold vtx; rw [W.V]; exact b2.2.1
    have eb2 : vtx E (P m) ≠ nb := by unfold vtx; rw [W.V]; exact b2.2.2
    have pos : ∀ x ∈ s.V (l.getD j 0 / 6), x ≠ na → x ≠ nb → ∃ f < 4, (s.V (l.getD j 0 / 6)).getD f 0 = x ∧
        (f = (inOf l new ip).t j 2 ∨ f = (inOf l new ip).t j 3) := by
      intro x hx xa xb
      obtain ⟨f, hf, he⟩ := List.getElem_of_mem hx
      have hl : (s.V (l.getD j 0 / 6)).length = 4 := T.len
      have he' : (s.V (l.getD j 0 / 6)).getD f 0 = x := by rw [List.getD_eq_getElem _ _ hf]; exact he
      rw [hl] at hf
      exact ⟨f, hf, he', (T.thru f hf).1 ⟨hf, by
        change (s.V (l.getD j 0 / 6)).getD f 0 ≠ na; rw [he']; exact xa, by
        change (s.V (l.getD j 0 / 6)).getD f 0 ≠ nb; rw [he']; exact xb⟩⟩
    obtain ⟨f, hf, ef, cf⟩ := pos w hw wa wb
    obtain ⟨g, hg, eg, cg⟩ := pos _ b3 eb1 eb2
    have ca := (T.thru _ a2.1).1 a2
    have hne : g ≠ P j % 4 := fun hh => b4 (by rw [← eg, hh, ea])
    have : f = P j % 4 ∨ f = g := by omega
    rcases this with rfl | rfl
    · left; rw [ea, ef]
    · right; rw [← eg, ef]
  have key : ∀ j < l.length, j ≠ k0 → j ≠ (k0 + 1) % l.length → ∀ w ∈ s.V (l.getD j 0 / 6),
      E.pbdy (vtx E nconf) = true → E.pbdy w = true →
      ∃ e0, used e0 ∧ vtx E nconf ∈ s.V e0 ∧ w ∈ s.V e0 := by
    intro j hj j1 j2 w hw hb1 hb2
    by_cases wa : w = na
    · exact ⟨_, C.round.used k0 C.lt, n4, wa ▸ (ends_in k0 C.lt).1⟩
    by_cases wb : w = nb
    · exact ⟨_, C.round.used k0 C.lt, n4, wb ▸ (ends_in k0 C.lt).2⟩
    obtain ⟨m, hm, hmj, hcase⟩ := poly j hj
    rcases hcase w hw wa wb with rfl | rfl
    · have := C.fem hf hb1 j hj j1 j2
      rw [hb2] at this; cases this
    · by_cases m1 : m = k0
      · subst m1; exact absurd hmj.symm j2
      by_cases m2 : m = (k0 + 1) % l.length
      · obtain ⟨p1, p2, _⟩ := C.pol m hm
        rw [W.V, p1] at p2
        refine ⟨_, C.round.used _ hk1, n5, ?_⟩
        rw [← m2]
        unfold vtx
        rw [W.V, p1]
        exact mem_getD (H.tet hm).len p2.1
      · have := C.fem hf hb1 m hm m1 m2
        rw [hb2] at this; cases this
  rintro e (⟨hu, hn⟩ | ⟨j, hj, j1, j2, hh⟩) u hu' w hw hne bu bw
  · rw [r1 e hu hn] at hu' hw
    exact ⟨e, hu, hu', hw⟩
  · have : ∃ i, Part (inOf l new ip) j e i := by
      rcases hh with hh | hh
      · exact ⟨_, .inl ⟨hh, rfl⟩⟩
      · exact ⟨_, .inr ⟨hh, rfl⟩⟩
    obtain ⟨i, hp⟩ := this
    rw [r2 j hj j1 j2 e i hp] at hu' hw
    rcases List.mem_or_eq_of_mem_set hu' with h1 | h1 <;> rcases List.mem_or_eq_of_mem_set hw with h2 | h2
    · exact ⟨_, C.round.used j hj, h1, h2⟩
    · subst h2
      obtain ⟨e0, q1, q2, q3⟩ := key j hj j1 j2 u h1 bw bu
      exact ⟨e0, q1, q3, q2⟩
    · subst h1
      exact key j hj j1 j2 w h2 bu bw
    · exact absurd (h1.trans h2.symm) hne

/-- **C86.** The swap creates no tetrahedron with four boundary vertices. -/
theorem C86_no_locked_tetra (hs : used start) (hia : ia < 6) (h : chkswpgen E crit lmax start ia = .conf nconf l)
    (W : World E s used c crit (ends (s.V start) ia).1 (ends (s.V start) ia).2 l new ip lmax base flag) {s' : Colver.St}
    (hd : swpgen E.tref room lmax base flag new ip nconf l s = .done s') :
    ∃ k0, Good s'.A s'.V (Left l new k0 used) c ∧
      ∀ e, Left l new k0 used e → (∀ x ∈ s'.V e, E.pbdy x = true) →
        used e ∧ s'.V e = s.V e ∧ ∀ j < l.length, e ≠ l.getD j 0 / 6 := by
  obtain ⟨cc, k0, P, C, _⟩ := chkswpgen_spec (used := used) (by rw [W.A, W.V]; exact W.good.mesh) hs hia h
  rw [W.V] at C
  generalize (ends (s.V start) ia).1 = na at *
  generalize (ends (s.V start) ia).2 = nb at *
  rcases W.core C room with ⟨h1, _⟩ | ⟨s2, h1, g, f1, f2, r1, r2⟩
  · rw [hd] at h1; cases h1
  rw [hd] at h1
  cases h1
  have H := W.pre C
  refine ⟨k0, g, ?_⟩
  rintro e (⟨hu, hn⟩ | ⟨j, hj, j1, j2, hh⟩) hb
  · exact ⟨hu, r1 e hu hn, hn⟩
  exfalso
  have : ∃ i, Part (inOf l new ip) j e i := by
    rcases hh with hh | hh
    · exact ⟨_, .inl ⟨hh, rfl⟩⟩
    · exact ⟨_, .inr ⟨hh, rfl⟩⟩
  obtain ⟨i, hp⟩ := this
  rw [r2 j hj j1 j2 e i hp] at hb
  have T := H.tet hj
  have hl : (s.V (l.getD j 0 / 6)).length = 4 := T.len
  have i4 := hp.lt H hj
  have hpass := (C.pass j hj j1 j2).bdy
  rw [W.V] at hpass
  have x6 := (H.round.edge j hj).1
  have oth : ∀ f < 4, f ≠ i → E.pbdy ((s.V (l.getD j 0 / 6)).getD f 0) = true := by
    intro f hf hfi
    have : ((s.V (l.getD j 0 / 6)).set i (vtx E nconf)).getD f 0 = (s.V (l.getD j 0 / 6)).getD f 0 :=
      getD_set_ne (Ne.symm hfi) _
    rw [← this]
    exact hb _ (mem_getD (by rw [List.length_set]; exact hl) hf)
  have hq : E.pbdy (vtx E nconf) = true := by
    have : ((s.V (l.getD j 0 / 6)).set i (vtx E nconf)).getD i 0 = vtx E nconf := getD_set_eq hl i4 _
    rw [← this]
    exact hb _ (mem_getD (by rw [List.length_set]; exact hl) i4)
  have comb : ∀ x < 6, (ifar x).1 < 4 ∧ (ifar x).2 < 4 ∧ (iare.getD x (0, 0)).1 < 4 ∧ (iare.getD x (0, 0)).2 < 4 ∧
      (iare.getD x (0, 0)).1 ≠ (iare.getD x (0, 0)).2 ∧
      (ifar x).1 ≠ (iare.getD x (0, 0)).1 ∧ (ifar x).1 ≠ (iare.getD x (0, 0)).2 ∧
      (ifar x).2 ≠ (iare.getD x (0, 0)).1 ∧ (ifar x).2 ≠ (iare.getD x (0, 0)).2 := by decide
  have x6' : l.getD j 0 % 6 < 6 := x6
  obtain ⟨c1, c2, c3, c4, c5, c6, c7, c8, c9⟩ := comb _ x6'
  have hor := hp.or
  have ti := Spl1b.t_iare x6'
  have hi : i = (iare.getD (l.getD j 0 % 6) (0, 0)).1 ∨ i = (iare.getD (l.getD j 0 % 6) (0, 0)).2 := by
    rcases hor with h' | h' <;> rw [h'] <;> rcases ti with ⟨q1, q2⟩ | ⟨q1, q2⟩
    · exact .inl q1
    · exact .inr q1
    · exact .inr q2
    · exact .inl q2
  apply hpass
  refine ⟨hq, oth _ c1 (by rcases hi with h' | h' <;> omega), oth _ c2 (by rcases hi with h' | h' <;> omega), ?_⟩
  rcases hi with h' | h'
  · exact .inr (oth _ c4 (by omega))
  · exact .inl (oth _ c3 (by omega))

/-- **C86.** When the list has no room for the ball of the middle vertex (more than `(MMG3D_LMAX - 2) / 2` tetrahedra around
the edge, which `MMG5_chkswpgen` accepts), nothing is collapsed: the vertex is given back though tetrahedra have it. -/
theorem C86_lost (hs : used start) (hia : ia < 6) (h : chkswpgen E crit lmax start ia = .conf nconf l)
    (hm : Mesh s.A s.V used) (ht : Colver.NoTwins s.A s.V used) (hA : E.A = s.A) (hV : E.V = s.V)
    (hnew : Delone.Fresh new used l.length) (hip : ∀ k, used k → ip ∉ s.V k) (hfl : ∀ k, flag k ≠ base)
    (hl3 : 3 ≤ lmax) (hbig : lmax - 2 < 2 * l.length) (hr : ∀ n, room n = true) :
    ∃ s1, swpgen E.tref room lmax base flag new ip nconf l s = .lost s1 ∧
      ∀ j < l.length, ip ∈ s1.V (l.getD j 0 / 6) ∧ ip ∈ s1.V (new j) := by
  obtain ⟨cc, k0, P, C, _⟩ := chkswpgen_spec (used := used) (by rw [hA, hV]; exact hm) hs hia h
  generalize (ends (E.V start) ia).1 = na at *
  generalize (ends (E.V start) ia).2 = nb at *
  have H : Pre (inOf l new ip) s.A s.V used na nb := ⟨hm, ht, by rw [← hA, ← hV]; exact C.round, hnew, hip⟩
  obtain ⟨s1, hsp⟩ := Option.isSome_iff_exists.1 (Spl1b.C85_succeeds H hr)
  refine ⟨s1, ?_, fun j hj => ⟨?_, ?_⟩⟩
  · have hm1 := H.mesh_after (H.all hsp).1 (H.all hsp).2
    have hk0 : k0 < (inOf l new ip).n := C.lt
    have hp0 : Part (inOf l new ip) k0 ((inOf l new ip).iel k0) ((inOf l new ip).t k0 1) := .inl ⟨rfl, rfl⟩
    have hu := hp0.after H hk0
    have hin := (mem_ip H hsp hu).2 ⟨k0, hk0, _, hp0⟩
    obtain ⟨f1, f2⟩ := Boule3.find_spec (hm1.len _ hu) hin
    obtain ⟨p1, _⟩ := C.pol k0 C.lt
    rw [C.conf] at p1
    have hfull : Boule3.boulevolp s1.A s1.V lmax base flag ((inOf l new ip).iel k0)
        (Boule3.find (s1.V ((inOf l new ip).iel k0)) ip) = .full := by
      cases hb : Boule3.boulevolp s1.A s1.V lmax base flag ((inOf l new ip).iel k0)
        (Boule3.find (s1.V ((inOf l new ip).iel k0)) ip) with
      | asrt => exact absurd hb (Boule3.C62_no_ball hm1 hl3 hu f1 hfl).1
      | full => rfl
      | ok b =>
        exfalso
        obtain ⟨b1, b2, b3, b4, b5, _⟩ := Boule3.C62_ball hm1 hl3 hu f1 hfl hb
        have hsub : (List.range l.length).map (inOf l new ip).iel ++ (List.range l.length).map new ⊆ b.l.map (· / 4) := by
          intro e he
          rw [b2]
          unfold Boule3.InBall
          rw [f2]
          rcases List.mem_append.1 he with he | he <;> obtain ⟨m, hm', rfl⟩ := List.mem_map.1 he
          · exact reach_ip H rfl hsp hk0 hp0 (List.mem_range.1 hm') (.inl ⟨rfl, rfl⟩)
          · exact reach_ip H rfl hsp hk0 hp0 (List.mem_range.1 hm') (.inr ⟨rfl, rfl⟩)
        have hnd : ((List.range l.length).map (inOf l new ip).iel ++ (List.range l.length).map new).Nodup := by
          rw [List.nodup_append]
          refine ⟨List.Nodup.map_on ?_ List.nodup_range, List.Nodup.map_on ?_ List.nodup_range, ?_⟩
          · intro a ha b hb e
            exact H.round.inj a (List.mem_range.1 ha) b (List.mem_range.1 hb) e
          · intro a ha b hb e
            exact hnew.inj a (List.mem_range.1 ha) b (List.mem_range.1 hb) e
          · intro a ha b hb e
            obtain ⟨m, hm', rfl⟩ := List.mem_map.1 ha
            obtain ⟨m', hm'', rfl⟩ := List.mem_map.1 hb
            exact H.iel_new (List.mem_range.1 hm') (List.mem_range.1 hm'') e
        have := (hnd.subperm hsub).length_le
        simp at this
        omega
    unfold swpgen
    dsimp only
    rw [hsp]
    dsimp only
    rw [p1]
    have hb' : Boule3.boulevolp s1.A s1.V lmax base flag (l.getD k0 0 / 6) (Boule3.find (s1.V (l.getD k0 0 / 6)) ip) =
      .full := hfull
    rw [hb']
  · exact (mem_ip H hsp (Part.after H hj (.inl ⟨rfl, rfl⟩))).2 ⟨j, hj, _, .inl ⟨rfl, rfl⟩⟩
  · exact (mem_ip H hsp (Part.after H hj (.inr ⟨rfl, rfl⟩))).2 ⟨j, hj, _, .inr ⟨rfl, rfl⟩⟩

/-! ### Sequences of operations -/

/-- An operation of C85, or the swap of an edge inside of the mesh. -/
inductive Step : Over.Cfg K → Over.Cfg K → Prop
  | other {a b : Over.Cfg K} (h : Spl1b.Step a b) : Step a b
  | swap {E : Env K} {s : State} {used : Nat → Prop} {c : Nat → Pt K} {crit : K} {l : List Nat} {new : Nat → Nat}
      {ip lmax base : Nat} {flag : Nat → Nat} {start ia nconf k0 : Nat} {room : Nat → Bool} {s' : Colver.St}
      (hs : used start) (hia : ia < 6) (h : chkswpgen E crit lmax start ia = .conf nconf l)
      (W : World E s used c crit (ends (s.V start) ia).1 (ends (s.V start) ia).2 l new ip lmax base flag)
      (hd : swpgen E.tref room lmax base flag new ip nconf l s = .done s') (hk : k0 < l.length)
      (hc : nconf / 4 = l.getD k0 0 / 6) :
      Step ⟨s.A, s.V, used, c⟩ ⟨s'.A, s'.V, Left l new k0 used, c⟩

/-- **C86.** After any sequence of insertions, collapses, swaps of faces and edges, relocations and edge splits the mesh is
valid. -/
theorem C86_history {a b : Over.Cfg K} (h : Relation.ReflTransGen Step a b) (G : Good a.A a.V a.used a.c) :
    Good b.A b.V b.used b.c ∧ Delone.Oriented b.A b.V b.used := by
  have key : Good b.A b.V b.used b.c := by
    induction h with
    | refl => exact G
    | tail _ hs ih =>
      cases hs with
      | other h => exact (Spl1b.C85_history (.single h) ih).1
      | @swap E s used c crit l new ip lmax base flag start ia nconf k0 room s' hs hia h W hd hk hc =>
        obtain ⟨cc, k1, P, C, _⟩ := chkswpgen_spec (used := used) (by rw [W.A, W.V]; exact W.good.mesh) hs hia h
        rw [W.V] at C
        rcases W.core C room with ⟨h1, _⟩ | ⟨s2, h1, g, _⟩
        · rw [hd] at h1; cases h1
        · rw [hd] at h1
          cases h1
          have : k1 = k0 := C.round.inj k1 C.lt k0 hk ((W.np C).2.2.2.2.2.1.symm.trans hc)
          subst this
          exact g
  exact ⟨key, key.oriented⟩

end

/-! ### A concrete case

Three tetrahedra around the edge 1-2 become two. -/

namespace Ex

open Mmg.Shell.Ex Mmg.Spl1b.Ex

def c6 : Nat → Pt ℚ
  | 1 => ⟨0, 0, -2⟩ | 2 => ⟨0, 0, 2⟩ | 3 => ⟨2, 0, 0⟩ | 4 => ⟨-1, 2, 0⟩ | 5 => ⟨-1, -2, 0⟩ | _ => ⟨0, 0, 0⟩

/-- The quality is the volume. -/
def E3 : Env ℚ := ⟨A3, V3, fun _ => false, fun _ => 1, fun _ _ => false, fun _ => 1 / 2, volOf c6, fun _ => false, false,
  true⟩

theorem good6 : Good s3.A s3.V U3 c6 := by
  refine ⟨mesh3, ?_, ?_⟩
  · rintro k ⟨h1, h2⟩; interval_cases k <;> decide +kernel
  · rintro k k' ⟨h1, h2⟩ ⟨h3, h4⟩ hne x ⟨w, hw, h1, hx, hy, hz⟩ ⟨w', hw', h1', hx', hy', hz'⟩
    interval_cases k <;> interval_cases k' <;>
    first
      | exact hne rfl
      | (simp [s3, V3, c6] at hw h1 hx hy hz hw' h1' hx' hy' hz'
         linarith)

theorem chk3 : chkswpgen E3 (1053 / 1000) 10240 1 0 = .conf 7 [6, 12, 18] := by decide +kernel

theorem world3 {lmax : Nat} (h : 3 ≤ lmax ∧ 2 * 3 ≤ lmax - 2) :
    World E3 s3 U3 c6 (1053 / 1000) (ends (s3.V 1) 0).1 (ends (s3.V 1) 0).2 [6, 12, 18] (fun k => k + 4) 9 lmax 1
      (fun _ => 0) where
  good := good6
  A := rfl
  V := rfl
  faces := faceOK3
  slots := slots3
  cal := fun _ _ h => h
  qual := fun _ _ => by show (0 : ℚ) ≤ 1 / 2; norm_num
  crit := by norm_num
  fresh := pre3.fresh
  mid := by
    show c6 9 = Pt.lerp (c6 1) (c6 2) (1 / 2)
    simp only [c6, Pt.lerp, Pt.mk.injEq]; norm_num
  ip := pre3.ip
  flag := fun _ => by decide
  fits := h

/-- All the hypotheses hold, and the result of the swap. -/
example : chkswpgen E3 (1053 / 1000) 10240 1 0 = .conf 7 [6, 12, 18] ∧ U3 1 ∧
    World E3 s3 U3 c6 (1053 / 1000) (ends (s3.V 1) 0).1 (ends (s3.V 1) 0).2 [6, 12, 18] (fun k => k + 4) 9 10240 1
      (fun _ => 0) ∧
    (match swpgen E3.tref (fun _ => true) 20 1 (fun _ => 0) (fun k => k + 4) 9 7 [6, 12, 18] s3 with
      | .done s' => some (s'.V 3, s'.V 6, s'.V 1, link s'.A 3 0, link s'.A 6 1)
      | _ => none) = some ([1, 4, 5, 3], [4, 2, 5, 3], [0, 0, 0, 0], 25, 12) :=
  ⟨chk3, ⟨le_rfl, by decide⟩, world3 (by decide), by decide +kernel⟩

/-- The hypotheses of `C86_lost`: a list with room for the three tetrahedra but not for the six of the ball. -/
example : chkswpgen E3 (1053 / 1000) 7 1 0 = .conf 7 [6, 12, 18] ∧ 7 - 2 < 2 * [6, 12, 18].length ∧
    Mesh s3.A s3.V U3 ∧ Colver.NoTwins s3.A s3.V U3 ∧ Delone.Fresh (fun k => k + 4) U3 3 :=
  ⟨by decide +kernel, by decide, mesh3, twins3, pre3.fresh⟩

end Ex

end Mmg.Swpg
