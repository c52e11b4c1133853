/-
  C74, continued: volumes, boundary data and references of the pieces.
-/
import Verif.Ls
import Verif.MatProps

namespace Mmg.Ls3
open Mmg.Split3

section
variable {K : Type} [Field K] [LinearOrder K] [IsStrictOrderedRing K]
  {E : Env} {eps e2 : K} {junk : Nat → BitVec 16} {c : Nat → Pt K} {sol : Nat → K} {ms : List LTet}
  {alloc : Bool} {pt : Nat → Nat → Nat} {c' : Nat → Pt K} {sol' : Nat → K}

/-- The new points of a tetrahedron are inside of their edges. -/
theorem on_edges (G : Given E eps e2 sol ms) (P : EdgePoints E eps c sol ms c' sol' pt) {m : LTet}
    (hm : m ∈ ms) :
    ∃ s : Nat → K, PointsOnEdges (flagOf fun e => pt (ends m e).1 (ends m e).2) c' m.t.v
        (fun e => pt (ends m e).1 (ends m e).2) s ∧
      ∀ e < 6, (flagOf fun e => pt (ends m e).1 (ends m e).2).testBit e = true → 0 < s e ∧ s e < 1 := by
  have key : ∀ e, ∃ t : K, e < 6 → (flagOf fun e => pt (ends m e).1 (ends m e).2).testBit e = true →
      c' (pt (ends m e).1 (ends m e).2) = (c' (ends m e).1).lerp (c' (ends m e).2) t ∧ 0 < t ∧ t < 1 := by
    intro e
    by_cases he : e < 6
    · by_cases hb : (flagOf fun e => pt (ends m e).1 (ends m e).2).testBit e = true
      · have hne := (P.iff _ _).2 ((flag_bit P he).1 hb)
        obtain ⟨_, t, h1, h2, h3, _⟩ := P.zero _ _ hne
        obtain ⟨ma, mb⟩ := ends_mem (G.vol4 m hm) he
        have := G.pos
        exact ⟨t, fun _ _ => ⟨by rw [h3, (P.old m hm _ ma).1, (P.old m hm _ mb).1], by linarith, by linarith⟩⟩
      · exact ⟨0, fun _ h => absurd h hb⟩
    · exact ⟨0, fun h => absurd h he⟩
  choose s hs using key
  exact ⟨s, fun e he hb => (hs e he hb).1, fun e he hb => (hs e he hb).2⟩

/-- One tetrahedron: the pieces, in terms of the split of `m.t`. -/
theorem cut4_cases (T : Tab) (m : LTet) :
    (cut4 T junk m = ([m], false)) ∨
    ∃ ch, split (flagOf (vxOf T m)) junk (vxOf T m) m.t = some ch ∧ flagOf (vxOf T m) ∈ patterns ∧
      cut4 T junk m = (ch.map fun x => { m with t := x }, true) := by
  unfold cut4
  simp only
  by_cases hp : flagOf (vxOf T m) ∈ patterns
  · right
    have hr : ∀ f ∈ patterns, 1 ≤ f ∧ f < 64 := by decide
    obtain ⟨ch, hch⟩ := split_some (hr _ hp).1 (hr _ hp).2 junk (vxOf T m) m.t
    refine ⟨ch, hch, hp, ?_⟩
    rw [if_pos hp, hch]; rfl
  · left; rw [if_neg hp]

/-- **C74.** No tetrahedron is inverted or flat and the volume is kept. -/
theorem C74_volume (G : Given E eps e2 sol ms) (hv : ∀ m ∈ ms, 0 < volOf c m.t.v)
    (h : (cuttet E alloc eps e2 junk c sol ms).ret ≠ 0) :
    (∀ x ∈ (cuttet E alloc eps e2 junk c sol ms).ms,
      0 < volOf (cuttet E alloc eps e2 junk c sol ms).s.c x.t.v) ∧
    ((cuttet E alloc eps e2 junk c sol ms).ms.map fun x =>
      volOf (cuttet E alloc eps e2 junk c sol ms).s.c x.t.v).sum = (ms.map fun m => volOf c m.t.v).sum := by
  obtain ⟨I, hms⟩ := cuttet_spec G h
  have P := I.points G
  rw [hms]
  generalize (cuttet E alloc eps e2 junk c sol ms).s = s at *
  have hsame : ∀ m ∈ ms, volOf s.c m.t.v = volOf c m.t.v := by
    intro m hm
    have h4 := G.vol4 m hm
    have hi : ∀ i < 4, s.c (m.t.v.getD i 0) = c (m.t.v.getD i 0) := by
      intro i hi
      refine (P.old m hm _ ?_).1
      rw [List.getD_eq_getElem _ _ (by omega)]
      exact List.getElem_mem _
    simp only [volOf, hi 0 (by omega), hi 1 (by omega), hi 2 (by omega), hi 3 (by omega)]
  have hone : ∀ m ∈ ms, (∀ x ∈ (cut4 s.tab junk m).1, 0 < volOf s.c x.t.v) ∧
      ((cut4 s.tab junk m).1.map fun x => volOf s.c x.t.v).sum = volOf c m.t.v := by
    intro m hm
    rcases cut4_cases (junk := junk) s.tab m with hc | ⟨ch, hsp, _, hc⟩
    · rw [hc]
      simp [hsame m hm, hv m hm]
    · rw [hc]
      obtain ⟨t, ht, ht'⟩ := on_edges G P hm
      constructor
      · intro x hx
        obtain ⟨y, hy, rfl⟩ := List.mem_map.1 hx
        exact split_volume_pos (G.wf m hm).1 hsp ht ht' (by rw [hsame m hm]; exact hv m hm) y hy
      · simp only [List.map_map]
        exact (split_volume_sum (G.wf m hm).1 hsp ht).trans (hsame m hm)
  constructor
  · intro x hx
    obtain ⟨m, hm, hx⟩ := List.mem_flatMap.1 hx
    exact (hone m hm).1 x hx
  · clear hms I P hsame
    have h2 : ∀ m ∈ ms, _ := fun m hm => (hone m hm).2
    clear hone hv G h
    induction ms with
    | nil => rfl
    | cons a l ih =>
      rw [List.flatMap_cons, List.map_append, List.sum_append, List.map_cons, List.sum_cons,
        h2 a List.mem_cons_self, ih fun m hm => h2 m (List.mem_cons_of_mem _ hm)]

/-- `x` inherits all the boundary data of `t`: references and tags of the edges and of the faces,
orientations. -/
def Inherits (t : CTet) (vx : Nat → Nat) (x : CTet) : Prop :=
  ∃ ps, Child t vx 0 ps x ∧ TagsInherited t ps x ∧ OriInherited t ps x

theorem C74_data_one (m : LTet) (wf : WF m.t) (T : Tab) :
    ∀ x ∈ (cut4 T junk m).1, x = m ∨ Inherits m.t (vxOf T m) x.t := by
  rcases cut4_cases (junk := junk) T m with hc | ⟨ch, hsp, hp, hc⟩
  · rw [hc]; intro x hx; left; simpa using hx
  · rw [hc]
    intro x hx
    obtain ⟨y, hy, rfl⟩ := List.mem_map.1 hx
    right
    obtain ⟨pss, hall⟩ := split_inherits_partial wf hsp
    have h63 : flagOf (vxOf T m) ≠ 63 := by
      intro h; rw [h] at hp; revert hp; decide
    have hop : flagOf (vxOf T m) ∉ threeOp := by
      have : ∀ f ∈ patterns, f ∉ threeOp := by decide
      exact this _ hp
    obtain ⟨i, hi, rfl⟩ := List.getElem_of_mem hy
    have hi' : i < pss.length := by rw [hall.length_eq]; exact hi
    obtain ⟨_, h1, h2, h3⟩ := hall.get hi' hi
    exact ⟨_, h1, h2 h63, h3 fun h => hop h.1⟩

/-- **C74.** The pieces keep the references, tags and orientations of the boundary faces and edges of
the tetrahedron they come from; required faces and edges are cut like the others. -/
theorem C74_data (G : Given E eps e2 sol ms)
    (h : (cuttet E alloc eps e2 junk c sol ms).ret ≠ 0) :
    ∃ pt, EdgePoints E eps c sol ms (cuttet E alloc eps e2 junk c sol ms).s.c
        (cuttet E alloc eps e2 junk c sol ms).s.sol pt ∧
      ∀ x ∈ (cuttet E alloc eps e2 junk c sol ms).ms, ∃ m ∈ ms, x.req = m.req ∧ x.xt = m.xt ∧
        (x = m ∨ Inherits m.t (fun e => pt (ends m e).1 (ends m e).2) x.t) := by
  obtain ⟨I, hms⟩ := cuttet_spec G h
  refine ⟨_, I.points G, ?_⟩
  rw [hms]
  intro x hx
  obtain ⟨m, hm, hx⟩ := List.mem_flatMap.1 hx
  refine ⟨m, hm, ?_, ?_, C74_data_one m (G.wf m hm).1 _ x hx⟩
  · rcases cut4_cases (junk := junk) (cuttet E alloc eps e2 junk c sol ms).s.tab m with hc | ⟨ch, _, _, hc⟩
    · rw [hc] at hx; rw [List.mem_singleton.1 hx]
    · rw [hc] at hx; obtain ⟨y, _, rfl⟩ := List.mem_map.1 hx; rfl
  · rcases cut4_cases (junk := junk) (cuttet E alloc eps e2 junk c sol ms).s.tab m with hc | ⟨ch, _, _, hc⟩
    · rw [hc] at hx; rw [List.mem_singleton.1 hx]
    · rw [hc] at hx; obtain ⟨y, _, rfl⟩ := List.mem_map.1 hx; rfl

/-- **C74.** References: a piece of a tetrahedron that is split gets the inner reference if it is in
the negative part and the outer one if it is in the positive part; the others keep their reference. -/
theorem C74_refs (G : Given E eps e2 sol ms) (hnz : ∀ m ∈ ms, ∃ p ∈ m.t.v, sol p ≠ 0)
    {s : S3 K} {out : List LTet} (h : discretize E alloc eps e2 junk c sol ms = some (s, out)) :
    ∃ pt, EdgePoints E eps c sol ms s.c s.sol pt ∧
      ∀ y ∈ out, ∃ m ∈ ms, Piece pt m { y with ref := m.ref } ∧
        match E.spl m.ref with
        | none => y.ref = m.ref
        | some (rin, rex) =>
          (y.ref = rin ∧ (∀ p ∈ y.t.v, s.sol p ≤ 0) ∧ ∃ p ∈ y.t.v, s.sol p < 0) ∨
          (y.ref = rex ∧ (∀ p ∈ y.t.v, 0 ≤ s.sol p) ∧ ∃ p ∈ y.t.v, 0 < s.sol p) := by
  unfold discretize at h
  simp only at h
  split at h
  · cases h
  rename_i hr
  simp only [Option.some.injEq, Prod.mk.injEq] at h
  obtain ⟨rfl, rfl⟩ := h
  obtain ⟨pt, P, hpc⟩ := C74_points (alloc := alloc) (junk := junk) (c := c) G hr
  have hsd := C74_sides (alloc := alloc) (junk := junk) (c := c) G hnz hr
  refine ⟨pt, P, ?_⟩
  intro y hy
  obtain ⟨x, hx, rfl⟩ := List.mem_map.1 hy
  obtain ⟨m, hm, hP⟩ := hpc x hx
  refine ⟨m, hm, ?_, ?_⟩
  · unfold setref
    obtain ⟨h1, h2, h3⟩ := hP
    split
    · exact ⟨rfl, h2, h3⟩
    · split <;> exact ⟨rfl, h2, h3⟩
  · have hxr := hP.1
    have hsx := hsd x hx
    unfold setref
    rw [hxr] at hsx ⊢
    cases hspl : E.spl m.ref with
    | none => simp only; exact hxr
    | some r =>
      obtain ⟨rin, rex⟩ := r
      simp only
      obtain ⟨hone, p, hp, hp0⟩ := hsx (by rw [hspl]; rfl)
      by_cases hany : (x.t.v.any fun p => decide (0 < (cuttet E alloc eps e2 junk c sol ms).s.sol p)) = true
      · rw [if_pos hany]
        right
        rw [List.any_eq_true] at hany
        obtain ⟨q, hq, hq0⟩ := hany
        rw [decide_eq_true_eq] at hq0
        refine ⟨rfl, ?_, q, hq, hq0⟩
        rcases hone with h | h
        · exact h
        · exact absurd (hq0.trans_le (h q hq)) (lt_irrefl _)
      · rw [if_neg hany]
        left
        have hno : ∀ q ∈ x.t.v, (cuttet E alloc eps e2 junk c sol ms).s.sol q ≤ 0 := by
          intro q hq
          by_contra hc
          exact hany (List.any_eq_true.2 ⟨q, hq, by simpa using hc⟩)
        exact ⟨rfl, hno, p, hp, lt_of_le_of_ne (hno p hp) hp0⟩

/-- **C74.** Without a table of materials: the tetrahedra of the result have the reference 3 (inside)
or 2 (outside), and the vertices common to the two parts are on the level set. -/
theorem C74_interface (G : Given E eps e2 sol ms) (hnz : ∀ m ∈ ms, ∃ p ∈ m.t.v, sol p ≠ 0)
    (hE : E.spl = fun _ => some Mat.isSplit0)
    {s : S3 K} {out : List LTet} (h : discretize E alloc eps e2 junk c sol ms = some (s, out)) :
    (∀ y ∈ out, y.ref = 3 ∨ y.ref = 2) ∧
    ∀ y ∈ out, ∀ z ∈ out, y.ref = 3 → z.ref = 2 → ∀ p ∈ y.t.v, p ∈ z.t.v → s.sol p = 0 := by
  obtain ⟨pt, _, hall⟩ := C74_refs G hnz h
  have key : ∀ y ∈ out, (y.ref = 3 ∧ ∀ p ∈ y.t.v, s.sol p ≤ 0) ∨ (y.ref = 2 ∧ ∀ p ∈ y.t.v, 0 ≤ s.sol p) := by
    intro y hy
    obtain ⟨m, _, _, hm⟩ := hall y hy
    rw [hE] at hm
    simp only [Mat.isSplit0] at hm
    rcases hm with ⟨h1, h2, _⟩ | ⟨h1, h2, _⟩
    · exact .inl ⟨h1, h2⟩
    · exact .inr ⟨h1, h2⟩
  refine ⟨fun y hy => (key y hy).imp And.left And.left, ?_⟩
  intro y hy z hz hy3 hz2 p hp hp'
  rcases key y hy with ⟨_, h1⟩ | ⟨h1, _⟩
  · rcases key z hz with ⟨h2, _⟩ | ⟨_, h2⟩
    · omega
    · exact le_antisymm (h1 p hp) (h2 p hp')
  · omega

end

end Mmg.Ls3
