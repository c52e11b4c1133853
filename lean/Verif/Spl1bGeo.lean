/-
  C85, continued. The split of an edge in space: volumes, no overlap; the list given by `MMG5_coquil`; sequences of
  operations.
-/
import Verif.Spl1bProps
import Verif.ShellGet

namespace Mmg.Spl1b

open Mmg.Split3 hiding bary
open Mmg.Swap23 Mmg.Shell Mmg.Over
open Mmg.Cavity (Inside NoOverlap)

section

variable {K : Type} [Field K] [LinearOrder K] [IsStrictOrderedRing K]

/-- Volumes of the parts. -/
theorem vol_parts (c : Nat → Pt K) {v : List Nat} (hl : v.length = 4) {i j : Nat} (hi : i < 4) (hj : j < 4) (hij : i ≠ j)
    {q : Nat} {r : K} (hq : c q = Pt.lerp (c (v.getD i 0)) (c (v.getD j 0)) r) :
    volOf c (v.set j q) = r * volOf c v ∧ volOf c (v.set i q) = (1 - r) * volOf c v := by
  match v, hl with
  | [a, b, d, e], _ =>
    interval_cases i <;> interval_cases j <;> first | exact absurd rfl hij | skip
    all_goals
      simp only [volOf, List.set, List.getD_cons_zero, List.getD_cons_succ] at hq ⊢
      rw [hq]
      simp only [vol, Pt.lerp]
      constructor <;> ring

/-- Where a point is with respect to the part that keeps vertex `i`. -/
theorem bary_part (c : Nat → Pt K) {v : List Nat} (hl : v.length = 4) {i j : Nat} (hi : i < 4) (hj : j < 4) (hij : i ≠ j)
    {q : Nat} {r : K} (hq : c q = Pt.lerp (c (v.getD i 0)) (c (v.getD j 0)) r) (x : Pt K) :
    bary c (v.set j q) x j = bary c v x j ∧
    bary c (v.set j q) x i = r * bary c v x i - (1 - r) * bary c v x j ∧
    ∀ f < 4, f ≠ i → f ≠ j → bary c (v.set j q) x f = r * bary c v x f := by
  match v, hl with
  | [a, b, d, e], _ =>
    interval_cases i <;> interval_cases j <;> first | exact absurd rfl hij | skip
    all_goals
      simp only [List.getD_cons_zero, List.getD_cons_succ] at hq
      refine ⟨?_, ?_, ?_⟩
      · simp only [bary, List.set, List.getD_cons_zero, List.getD_cons_succ]
      · simp only [bary, List.set, List.getD_cons_zero, List.getD_cons_succ, hq, vol, Pt.lerp]
        ring
      · intro f hf h1 h2
        interval_cases f <;> first | exact absurd rfl h1 | exact absurd rfl h2 | skip
        all_goals
          simp only [bary, List.set, List.getD_cons_zero, List.getD_cons_succ, hq, vol, Pt.lerp]
          ring

theorem lerp_swap (p q : Pt K) (r : K) : Pt.lerp p q r = Pt.lerp q p (1 - r) := by
  simp only [Pt.lerp, Pt.mk.injEq]
  refine ⟨?_, ?_, ?_⟩ <;> ring

variable {I : In} {used : Nat → Prop} {na nb : Nat} {s s' : State} {room : Nat → Bool} {c : Nat → Pt K}

/-- The new vertex seen from one tetrahedron. -/
theorem Pre.frac {A : Nat → Nat} {V : Nat → List Nat} (H : Pre I A V used na nb) {r : K}
    (hc : c I.ip = Pt.lerp (c na) (c nb) r) (h0 : 0 < r) (h1 : r < 1) {k : Nat} (hk : k < I.n) :
    ∃ t : K, 0 < t ∧ t < 1 ∧
      c I.ip = Pt.lerp (c ((V (I.iel k)).getD (I.t k 0) 0)) (c ((V (I.iel k)).getD (I.t k 1) 0)) t := by
  rcases (H.tet hk).ends with ⟨e0, e1⟩ | ⟨e0, e1⟩ <;> rw [e0, e1]
  · exact ⟨r, h0, h1, hc⟩
  · exact ⟨1 - r, by linarith, by linarith, by rw [hc, lerp_swap]⟩

/-- **C85.** When the new vertex is inside the edge the two parts of a tetrahedron have together its volume, and both
are positive if it is. -/
theorem C85_volume (H : Pre I s.A s.V used na nb) (h : split1b I room s = some s') {r : K}
    (hc : c I.ip = Pt.lerp (c na) (c nb) r) (h0 : 0 < r) (h1 : r < 1) {k : Nat} (hk : k < I.n) :
    volOf c (s'.V (I.iel k)) + volOf c (s'.V (I.new k)) = volOf c (s.V (I.iel k)) ∧
    (0 < volOf c (s.V (I.iel k)) → 0 < volOf c (s'.V (I.iel k)) ∧ 0 < volOf c (s'.V (I.new k))) := by
  have hV := (H.all h).2
  have T := H.tet hk
  obtain ⟨t, t0, t1, ht⟩ := H.frac hc h0 h1 hk
  have hij : I.t k 0 ≠ I.t k 1 := fun e => absurd (T.perm.inj 0 (by decide) 1 (by decide) e) (by decide)
  obtain ⟨v1, v2⟩ := vol_parts c T.len (T.perm.lt 0 (by decide)) (T.perm.lt 1 (by decide)) hij ht
  rw [(hV.done k hk).1, (hV.done k hk).2, v1, v2]
  exact ⟨by ring, fun hp => ⟨mul_pos t0 hp, mul_pos (by linarith) hp⟩⟩

/-- **C85.** A valid mesh in space stays so when an edge is split at a point inside of it: links are symmetric and join
equal faces, volumes are positive, no point is inside of two tetrahedra. -/
theorem C85_good (G : Good s.A s.V used c) (H : Pre I s.A s.V used na nb) (h : split1b I room s = some s') {r : K}
    (hc : c I.ip = Pt.lerp (c na) (c nb) r) (h0 : 0 < r) (h1 : r < 1) : Good s'.A s'.V (After I used) c := by
  obtain ⟨hA, hV⟩ := H.all h
  have hm := H.mesh_after hA hV
  have hold : ∀ e, used e → (∀ k < I.n, e ≠ I.iel k) → s'.V e = s.V e := fun e he hn =>
    hV.rest e hn (fun k hk h => H.fresh.free k hk (h ▸ he))
  have hpos : ∀ e, After I used e → 0 < volOf c (s'.V e) := by
    rintro e (he | ⟨k, hk, rfl⟩)
    · by_cases hs : ∃ k < I.n, e = I.iel k
      · obtain ⟨k, hk, rfl⟩ := hs
        exact ((C85_volume H h hc h0 h1 hk).2 (G.pos _ he)).1
      · rw [hold e he (fun k hk h => hs ⟨k, hk, h⟩)]; exact G.pos e he
    · exact ((C85_volume H h hc h0 h1 hk).2 (G.pos _ (H.tet hk).us)).2
  have ins : ∀ e, After I used e → ∀ x, Inside c (s'.V e) x ↔ ∀ i < 4, 0 < bary c (s'.V e) x i := fun e he =>
    inside_iff (hm.len e he) (hm.nd e he) (hpos e he)
  -- the side of the cut
  have part : ∀ k < I.n, ∃ t : K, 0 < t ∧ t < 1 ∧ ∀ x,
      (Inside c (s'.V (I.iel k)) x → Inside c (s.V (I.iel k)) x ∧
        0 < t * bary c (s.V (I.iel k)) x (I.t k 0) - (1 - t) * bary c (s.V (I.iel k)) x (I.t k 1)) ∧
      (Inside c (s'.V (I.new k)) x → Inside c (s.V (I.iel k)) x ∧
        0 < (1 - t) * bary c (s.V (I.iel k)) x (I.t k 1) - t * bary c (s.V (I.iel k)) x (I.t k 0)) := by
    intro k hk
    have T := H.tet hk
    have l0 := T.perm.lt 0 (by decide)
    have l1 := T.perm.lt 1 (by decide)
    obtain ⟨t, t0, t1, ht⟩ := H.frac hc h0 h1 hk
    have t1' : 0 < 1 - t := by linarith
    have ht' := ht
    rw [lerp_swap] at ht'
    have hij : I.t k 0 ≠ I.t k 1 := fun e => absurd (T.perm.inj 0 (by decide) 1 (by decide) e) (by decide)
    refine ⟨t, t0, t1, fun x => ⟨fun hx => ?_, fun hx => ?_⟩⟩
    · rw [ins _ (.inl T.us)] at hx
      rw [inside_iff T.len T.nd (G.pos _ T.us)]
      rw [(hV.done k hk).1] at hx
      obtain ⟨b1, b2, b3⟩ := bary_part c T.len l0 l1 hij ht x
      have x1 := hx _ l1
      have x0 := hx _ l0
      rw [b1] at x1
      rw [b2] at x0
      refine ⟨fun f hf => ?_, x0⟩
      by_cases f1 : f = I.t k 1
      · rw [f1]; exact x1
      · by_cases f0 : f = I.t k 0
        · rw [f0]
          have := mul_pos t1' x1
          exact (pos_iff_pos_of_mul_pos (by linarith : (0 : K) < t * bary c (s.V (I.iel k)) x (I.t k 0))).1 t0
        · have := hx f hf
          rw [b3 f hf f0 f1] at this
          exact (pos_iff_pos_of_mul_pos this).1 t0
    · rw [ins _ (.inr ⟨k, hk, rfl⟩)] at hx
      rw [inside_iff T.len T.nd (G.pos _ T.us)]
      rw [(hV.done k hk).2] at hx
      obtain ⟨b1, b2, b3⟩ := bary_part c T.len l1 l0 hij.symm ht' x
      have x1 := hx _ l1
      have x0 := hx _ l0
      rw [b1] at x0
      rw [b2, show (1 : K) - (1 - t) = t by ring] at x1
      refine ⟨fun f hf => ?_, x1⟩
      by_cases f0 : f = I.t k 0
      · rw [f0]; exact x0
      · by_cases f1 : f = I.t k 1
        · rw [f1]
          have := mul_pos t0 x0
          exact (pos_iff_pos_of_mul_pos (by linarith : (0 : K) < (1 - t) * bary c (s.V (I.iel k)) x (I.t k 1))).1 t1'
        · have := hx f hf
          rw [b3 f hf f1 f0] at this
          exact (pos_iff_pos_of_mul_pos this).1 t1'
  -- a point of a tetrahedron after is in the one it comes from
  have sub : ∀ e p, Org I used e p → ∀ x, Inside c (s'.V e) x → Inside c (s.V p) x := by
    rintro e p (⟨hu, rfl⟩ | ⟨k, hk, rfl, rfl⟩) x hx
    · by_cases hs : ∃ k < I.n, p = I.iel k
      · obtain ⟨k, hk, rfl⟩ := hs
        obtain ⟨t, _, _, ht⟩ := part k hk
        exact ((ht x).1 hx).1
      · rw [hold p hu (fun k hk h => hs ⟨k, hk, h⟩)] at hx; exact hx
    · obtain ⟨t, _, _, ht⟩ := part k hk
      exact ((ht x).2 hx).1
  refine ⟨hm, hpos, ?_⟩
  intro e e' he he' hne x hx hx'
  obtain ⟨p, ho⟩ := he.org
  obtain ⟨p', ho'⟩ := he'.org
  by_cases hp : p = p'
  · subst hp
    have both : ∀ k < I.n, Inside c (s'.V (I.iel k)) x → Inside c (s'.V (I.new k)) x → False := by
      intro k hk y1 y2
      obtain ⟨t, _, _, ht⟩ := part k hk
      have z1 := ((ht x).1 y1).2
      have z2 := ((ht x).2 y2).2
      linarith
    rcases ho with ⟨hu, rfl⟩ | ⟨k, hk, rfl, rfl⟩ <;> rcases ho' with ⟨hu', hp'⟩ | ⟨k', hk', rfl, hp'⟩
    · exact hne hp'
    · rw [hp'] at hx
      exact both k' hk' hx hx'
    · rw [← hp'] at hx'
      exact both k hk hx' hx
    · exact hne (by rw [H.round.inj _ hk _ hk' hp'])
  · exact G.apart p p' (H.org_used ho) (H.org_used ho') hp x (sub _ _ ho x hx) (sub _ _ ho' x hx')

end

/-! ### The list of the shell -/

section

variable {m : M} {used : Nat → Prop}

theorem chain_round (hm : Mesh m.A m.V used) {na nb n : Nat} {d : Nat × Nat} {cl : Bool}
    (hc : Chain m.A m.V used na nb d n cl) :
    Round m.A m.V used na nb (fun j => ((accOf m na nb d n).reverse).getD j 0) (n + 1) (!cl) := by
  have hent : ∀ j ≤ n, ((accOf m na nb d n).reverse).getD j 0 = entry m.V na nb (seq m.A m.V na nb d j) := by
    intro j hj
    simp only [accOf, List.reverse_reverse]
    rw [List.getD_eq_getElem _ _ (by simp; omega)]
    simp
  have hd := fun j (hj : j ≤ n) => seq_dart hm hc.dart hc.alive j hj
  have hq : ∀ j ≤ n, ((accOf m na nb d n).reverse).getD j 0 / 6 = (seq m.A m.V na nb d j).1 := fun j hj => by
    rw [hent j hj]; exact (hd j hj).edge.2.2.1
  have hr : ∀ j ≤ n, ((accOf m na nb d n).reverse).getD j 0 % 6 = edgeOf m.V na nb (seq m.A m.V na nb d j).1 :=
    fun j hj => by rw [hent j hj]; exact (hd j hj).edge.2.2.2
  have stp : ∀ q : Nat × Nat, Dart m.V used na nb q → link m.A q.1 q.2 ≠ 0 →
      link m.A q.1 q.2 = 4 * (nxt m.A m.V na nb q).1 +
        oth (m.V (nxt m.A m.V na nb q).1) na nb (nxt m.A m.V na nb q).2 := by
    intro q hq hl
    obtain ⟨_, hh, ht, _⟩ := hq.cross hm hl
    have := (face_thru hh ht).2.2.1
    simp only [nxt, this]
    omega
  constructor
  · omega
  · intro j hj
    simp only [hq j (by omega)]
    exact (hd j (by omega)).used
  · intro j hj
    simp only [hq j (by omega), hr j (by omega)]
    obtain ⟨h6, he, _⟩ := (hd j (by omega)).edge
    exact ⟨h6, he⟩
  · intro j hj k hk he
    simp only [hq j (by omega), hq k (by omega)] at he
    exact hc.inj hm j k (by omega) (by omega) he
  · refine ⟨fun j => (seq m.A m.V na nb d j).2,
      fun j => oth (m.V (seq m.A m.V na nb d j).1) na nb (seq m.A m.V na nb d j).2, ?_, ?_, ?_, ?_⟩
    · intro j hj
      simp only [hq j (by omega)]
      have D := hd j (by omega)
      obtain ⟨_, h2, _, h4⟩ := face_thru D.has D.thru
      exact ⟨D.thru, h2, Ne.symm h4⟩
    · intro j hj
      simp only [hq j (by omega), hq (j + 1) (by omega)]
      exact stp _ (hd j (by omega)) (hc.alive j (by omega))
    · intro ho
      have : cl = false := by simpa using ho
      obtain ⟨z1, z2⟩ := hc.opened this
      simp only [show n + 1 - 1 = n by omega, hq n le_rfl, hq 0 (by omega)]
      exact ⟨z1, z2⟩
    · intro ho
      have : cl = true := by simpa using ho
      obtain ⟨z1, z2, _⟩ := hc.closed this
      simp only [show n + 1 - 1 = n by omega, hq n le_rfl, hq 0 (by omega)]
      have e := stp _ (hd n le_rfl) z1
      have z2' : nxt m.A m.V na nb (seq m.A m.V na nb d n) = d := z2
      rw [z2'] at e
      exact e

/-- **C85.** The list `MMG5_coquil` gives (C59) with the answer "open" is as the split needs it. -/
theorem C85_shell (hm : Mesh m.A m.V used) {lmax start ia : Nat} (hl : 4 ≤ lmax) (hs : used start) (hia : ia < 6)
    {l : List Nat} {cl isb : Bool} (h : coquil m lmax start ia = .shell l cl isb) :
    Round m.A m.V used (ends (m.V start) ia).1 (ends (m.V start) ia).2 (fun j => l.getD j 0) l.length (!cl) := by
  have key := coquil_ok hm hl hs hia
  rw [h] at key
  have len : ∀ (d : Nat × Nat) (n : Nat),
      (accOf m (ends (m.V start) ia).1 (ends (m.V start) ia).2 d n).reverse.length = n + 1 := by
    intro d n; simp [accOf]
  cases key with
  | closed n hc isb hn hr hb => rw [len]; exact chain_round hm hc
  | opened n c hc hs hn hr => rw [len]; exact chain_round hm hc

end

/-! ### Sequences of operations -/

section

variable {K : Type} [Field K] [LinearOrder K] [IsStrictOrderedRing K]

/-- An operation of C66, or the split of an edge at a point inside of it (of all the tetrahedra that `MMG5_coquil` finds
around the edge). -/
inductive Step : Over.Cfg K → Over.Cfg K → Prop
  | other {a b : Over.Cfg K} (h : Over.Step a b) : Step a b
  | split {s s' : State} {used : Nat → Prop} {c : Nat → Pt K} {I : In} {req : Nat → Bool} {bdy : Nat → Nat → Bool}
      {lmax start ia : Nat} {l : List Nat} {cl isb : Bool} {room : Nat → Bool} {r : K} (hl : 4 ≤ lmax) (hs : used start)
      (hia : ia < 6) (hq : coquil ⟨s.A, s.V, req, bdy⟩ lmax start ia = .shell l cl isb)
      (hI : I.l = (fun j => l.getD j 0) ∧ I.n = l.length ∧ I.op = !cl) (hnew : Delone.Fresh I.new used I.n)
      (hip : ∀ k, used k → I.ip ∉ s.V k)
      (hc : c I.ip = Pt.lerp (c (ends (s.V start) ia).1) (c (ends (s.V start) ia).2) r) (h0 : 0 < r) (h1 : r < 1)
      (h : split1b I room s = some s') : Step ⟨s.A, s.V, used, c⟩ ⟨s'.A, s'.V, After I used, c⟩

/-- **C85.** After any sequence of insertions, collapses, swaps, relocations and edge splits the mesh is valid. -/
theorem C85_history {a b : Over.Cfg K} (h : Relation.ReflTransGen Step a b) (G : Good a.A a.V a.used a.c) :
    Good b.A b.V b.used b.c ∧ Delone.Oriented b.A b.V b.used := by
  have key : Good b.A b.V b.used b.c := by
    induction h with
    | refl => exact G
    | tail _ hs ih =>
      cases hs with
      | other h => exact (C66_history (.single h) ih).1
      | @split s s' used c I req bdy lmax start ia l cl isb room r hl hs hia hq hI hnew hip hc h0 h1 h =>
        obtain ⟨i1, i2, i3⟩ := hI
        have R := C85_shell (m := ⟨s.A, s.V, req, bdy⟩) ih.mesh hl hs hia hq
        have H : Pre I s.A s.V used (ends (s.V start) ia).1 (ends (s.V start) ia).2 :=
          ⟨ih.mesh, ih.noTwins, by rw [i1, i2, i3]; exact R, hnew, hip⟩
        exact C85_good ih H h hc h0 h1
  exact ⟨key, key.oriented⟩

end

/-! ### A concrete case -/

namespace Ex

open Mmg.Shell.Ex

/-- Three tetrahedra around the edge 1-2; a record for each, with the outer faces on the boundary. -/
def x0 : XT where
  ref := fun f => if f < 2 then 7 else 0
  ftag := fun f => if f < 2 then 16 else 0
  ori := fun _ => true
  edg := fun _ => 0
  tag := fun _ => 0

def s3 : State := ⟨V3, A3, fun k => if k ≤ 3 then k else 0, fun _ => x0, 3⟩

def I3 : In := ⟨fun j => [6, 12, 18].getD j 0, 3, false, fun k => k + 4, 9⟩

theorem twins3 : Colver.NoTwins A3 V3 U3 := by
  rintro k ⟨h1, h2⟩ f hf hl
  interval_cases k <;> interval_cases f <;> first | exact absurd rfl hl | decide

theorem pre3 : Pre I3 s3.A s3.V U3 1 2 := by
  have R := C85_shell (m := m3) mesh3 (lmax := 10240) (start := 1) (ia := 0) (by decide) ⟨le_rfl, by decide⟩ (by decide)
    (l := [6, 12, 18]) (cl := true) (isb := false) rfl
  refine ⟨mesh3, twins3, R, ⟨fun _ _ => ?_, ?_, fun _ _ _ _ h => ?_⟩, ?_⟩
  · show 1 ≤ _ + 4; omega
  · rintro j _ ⟨_, h2⟩
    change j + 4 ≤ 3 at h2
    omega
  · change _ + 4 = _ + 4 at h
    omega
  · rintro k ⟨h1, h2⟩; interval_cases k <;> decide

theorem slots3 : Colver.Slots U3 (proj s3) := by
  constructor
  · rintro k k' ⟨h1, h2⟩ ⟨h3, h4⟩ h0 h
    change (if k ≤ 3 then k else 0) = (if k' ≤ 3 then k' else 0) at h
    rwa [if_pos h2, if_pos h4] at h
  · rintro k ⟨h1, h2⟩
    change (if k ≤ 3 then k else 0) ≤ 3
    rw [if_pos h2]; exact h2

theorem faceOK3 : Colver.FaceOK (fun _ => 1) U3 (proj s3) := by
  constructor
  · rintro k ⟨h1, h2⟩ f hf
    interval_cases k <;> interval_cases f <;> decide
  · rintro k ⟨h1, h2⟩ f hf h0
    interval_cases k <;> interval_cases f <;> first | exact absurd rfl h0 | decide
  · rintro k ⟨h1, h2⟩ f hf h0
    interval_cases k <;> interval_cases f <;> first | exact absurd h0 (by decide) | exact ⟨rfl, rfl⟩
  · intro k _ f _ _ h; exact absurd rfl h
  · intro k _ f _ _; exact ⟨fun h => absurd h (lt_irrefl _), fun h => absurd h (lt_irrefl _)⟩

def c3 : Nat → Pt ℚ
  | 2 => ⟨0, 0, 2⟩ | 3 => ⟨2, 0, 0⟩ | 4 => ⟨-1, 2, 0⟩ | 5 => ⟨-1, -2, 0⟩ | 9 => ⟨0, 0, 1⟩ | _ => ⟨0, 0, 0⟩

theorem good3 : Good s3.A s3.V U3 c3 := by
  refine ⟨mesh3, ?_, ?_⟩
  · rintro k ⟨h1, h2⟩; interval_cases k <;> decide +kernel
  · rintro k k' ⟨h1, h2⟩ ⟨h3, h4⟩ hne x ⟨w, hw, h1, hx, hy, hz⟩ ⟨w', hw', h1', hx', hy', hz'⟩
    interval_cases k <;> interval_cases k' <;>
    first
      | exact hne rfl
      | (simp [s3, V3, c3] at hw h1 hx hy hz hw' h1' hx' hy' hz'
         linarith)

/-- All the hypotheses hold, the split is done and is a step; the first tetrahedron is cut in two. -/
example : Good s3.A s3.V U3 c3 ∧ Pre I3 s3.A s3.V U3 1 2 ∧ Colver.Slots U3 (proj s3) ∧
    Colver.FaceOK (fun _ => 1) U3 (proj s3) ∧
    ∃ s', split1b I3 (fun _ => true) s3 = some s' ∧
      Step ⟨s3.A, s3.V, U3, c3⟩ ⟨s'.A, s'.V, After I3 U3, c3⟩ ∧ s'.V 1 = [1, 9, 3, 4] ∧ s'.V 4 = [9, 2, 3, 4] ∧
      s'.nxt = 6 ∧ link s'.A 4 2 = 4 * 5 + 3 ∧ Colver.fd (proj s') 4 0 = (7, 16) ∧ Colver.fd (proj s') 4 1 = (0, 0) := by
  have hc : c3 I3.ip = Pt.lerp (c3 1) (c3 2) (1 / 2) := by
    simp only [I3, c3, Pt.lerp, Pt.mk.injEq]; norm_num
  refine ⟨good3, pre3, slots3, faceOK3, ?_⟩
  obtain ⟨s', h⟩ := Option.isSome_iff_exists.1 (C85_succeeds pre3 (fun _ => rfl) (room := fun _ => true))
  refine ⟨s', h, Step.split (lmax := 10240) (start := 1) (ia := 0) (req := fun _ => false) (bdy := fun _ _ => false)
    (l := [6, 12, 18]) (cl := true) (isb := false) (by decide) ⟨le_rfl, by decide⟩ (by decide) rfl ⟨rfl, rfl, rfl⟩
    pre3.fresh pre3.ip hc (by norm_num) (by norm_num) h, ?_⟩
  have h1 : (split1b I3 (fun _ => true) s3).map (fun s => (s.V 1, s.V 4, s.nxt, link s.A 4 2)) =
      some ([1, 9, 3, 4], [9, 2, 3, 4], 6, 23) := by decide +kernel
  have h2 : (split1b I3 (fun _ => true) s3).map (fun s => (Colver.fd (proj s) 4 0).1) = some 7 := by decide +kernel
  have h3 : (split1b I3 (fun _ => true) s3).map (fun s => (Colver.fd (proj s) 4 0).2) = some 16 := by decide +kernel
  have h4 : (split1b I3 (fun _ => true) s3).map (fun s => (Colver.fd (proj s) 4 1).1) = some 0 := by decide +kernel
  have h5 : (split1b I3 (fun _ => true) s3).map (fun s => (Colver.fd (proj s) 4 1).2) = some 0 := by decide +kernel
  rw [h] at h1 h2 h3 h4 h5
  simp only [Option.map_some, Option.some.injEq, Prod.mk.injEq] at h1 h2 h3 h4 h5
  obtain ⟨a, b, d, e⟩ := h1
  exact ⟨a, b, d, e, Prod.ext h2 h3, Prod.ext h4 h5⟩

/-- An open shell: the edge is on the boundary, the first and the last new tetrahedra are not linked. -/
def I2 : In := ⟨fun j => [12, 6].getD j 0, 2, true, fun k => k + 3, 9⟩

def s2 : State := ⟨V3, A2, fun _ => 0, fun _ => x0, 0⟩

example : Round s2.A s2.V U2 1 2 I2.l I2.n I2.op ∧
    (split1b I2 (fun _ => true) s2).map (fun s => (s.V 3, link s.A 3 3, link s.A 3 2, link s.A 3 0)) =
      some ([9, 2, 4, 5], 4 * 4 + 2, 0, 0) ∧
    (split1b I2 (fun _ => true) s2).map (fun s => (link s.A 3 1, link s.A 2 0)) = some (4 * 2 + 0, 4 * 3 + 1) := by
  refine ⟨C85_shell (m := m2) mesh2 (lmax := 10240) (start := 1) (ia := 0) (by decide) ⟨le_rfl, by decide⟩ (by decide)
    (l := [12, 6]) (cl := false) (isb := true) rfl, ?_, ?_⟩ <;> decide +kernel

end Ex

end Mmg.Spl1b
