/-
  C74: discretization of a level set in a tetrahedral mesh.
-/
import Verif.LsLemmas

namespace Mmg.Ls3
open Mmg.Split3

/-! ### Specification -/

section
variable {K : Type} [Field K] [LinearOrder K]

/-- The situation: thresholds, fresh numbers, complete tetrahedra, enough memory for the table;
the values are 0 or larger than the threshold (C74_snap: this holds after the snapping). -/
structure Given (E : Env) (eps e2 : K) (sol : Nat → K) (ms : List LTet) : Prop where
  small : 0 < e2
  pos : 0 < eps
  half : 2 * eps ≤ 1
  fresh : Fresh E.new ms
  wf : ∀ m ∈ ms, WF m.t ∧ m.t.v.Nodup
  vals : ∀ m ∈ ms, ∀ p ∈ m.t.v, sol p = 0 ∨ e2 < |sol p|
  mem : ∀ n, E.ok n = true

/-- `pt a b` is the new point of the edge `a b` (0: none): the edges with a point are those that
have to be cut; each one has its own point, a new one, on the zero of the level set. -/
structure EdgePoints (E : Env) (eps : K) (c : Nat → Pt K) (sol : Nat → K) (ms : List LTet)
    (c' : Nat → Pt K) (sol' : Nat → K) (pt : Nat → Nat → Nat) : Prop where
  symm : ∀ a b, pt a b = pt b a
  iff : ∀ a b, pt a b ≠ 0 ↔ Wanted E.spl sol ms a b
  new : ∀ a b, pt a b ≠ 0 → ∃ q, pt a b = E.new q
  inj : ∀ a b a' b', pt a b ≠ 0 → pt a b = pt a' b' → (a = a' ∧ b = b') ∨ (a = b' ∧ b = a')
  zero : ∀ a b, pt a b ≠ 0 → sol' (pt a b) = 0 ∧ OnZero eps c sol a b (c' (pt a b))
  old : ∀ m ∈ ms, ∀ p ∈ m.t.v, c' p = c p ∧ sol' p = sol p

/-- All values on the same side of 0. -/
def OneSide (sol : Nat → K) (v : List Nat) : Prop := (∀ p ∈ v, 0 ≤ sol p) ∨ ∀ p ∈ v, sol p ≤ 0

/-- Two vertices are positive and two are negative. -/
def TwoTwo (sol : Nat → K) (v : List Nat) : Prop :=
  (v.countP fun p => decide (0 < sol p)) = 2 ∧ (v.countP fun p => decide (sol p < 0)) = 2

/-- A piece of the tetrahedron `m`: its vertices are vertices of `m` or points of edges of `m`; it
has the reference of `m`. -/
def Piece (pt : Nat → Nat → Nat) (m x : LTet) : Prop :=
  x.ref = m.ref ∧ x.t.v.length = 4 ∧
    ∀ p ∈ x.t.v, p ∈ m.t.v ∨ ∃ a ∈ m.t.v, ∃ b ∈ m.t.v, pt a b ≠ 0 ∧ p = pt a b

end

/-! ### Lemmas -/

section
variable {K : Type} [Field K] [LinearOrder K] [IsStrictOrderedRing K]
  {E : Env} {eps e2 : K} {junk : Nat → BitVec 16} {c : Nat → Pt K} {sol : Nat → K} {ms : List LTet}
  {alloc : Bool}

theorem Given.vol4 (G : Given E eps e2 sol ms) : ∀ m ∈ ms, m.t.v.length = 4 :=
  fun m hm => (G.wf m hm).1.v

theorem opposite_abs (G : Given E eps e2 sol ms) {m : LTet} (hm : m ∈ ms) {a b : Nat} (ha : a ∈ m.t.v)
    (hb : b ∈ m.t.v) (h : Opposite sol a b) : e2 < |sol a| ∧ e2 < |sol b| := by
  constructor
  · rcases G.vals m hm a ha with h0 | h0
    · rcases h with ⟨h1, _⟩ | ⟨h1, _⟩ <;> rw [h0] at h1 <;> exact absurd h1 (lt_irrefl _)
    · exact h0
  · rcases G.vals m hm b hb with h0 | h0
    · rcases h with ⟨_, h1⟩ | ⟨_, h1⟩ <;> rw [h0] at h1 <;> exact absurd h1 (lt_irrefl _)
    · exact h0

theorem cut4_none (T : Tab) (m : LTet) (h : ∀ e < 6, vxOf T m e = 0) :
    cut4 T junk m = ([m], false) := by
  unfold cut4
  obtain ⟨hlt, hb⟩ := flagOf_bits (vxOf T m)
  have h0 : flagOf (vxOf T m) = 0 := by
    apply Nat.eq_of_testBit_eq
    intro i
    rw [Nat.zero_testBit]
    by_cases hi : i < 6
    · rw [hb i hi, h i hi]; rfl
    · exact Nat.testBit_lt_two_pow (lt_of_lt_of_le hlt (Nat.pow_le_pow_right (n := 2) (by norm_num) (by omega : 6 ≤ i)))
  simp only [h0]
  rfl

/-- What is known after a cut that did not fail. -/
theorem cuttet_spec (G : Given E eps e2 sol ms)
    (h : (cuttet E alloc eps e2 junk c sol ms).ret ≠ 0) :
    Inv E eps c sol ms (edges ms) (cuttet E alloc eps e2 junk c sol ms).s ∧
    (cuttet E alloc eps e2 junk c sol ms).ms =
      ms.flatMap fun m => (cut4 (cuttet E alloc eps e2 junk c sol ms).s.tab junk m).1 := by
  have hf := foldl_mark1 e2 sol (edges ms) ⟨fun _ => 0, 0⟩ (by simp)
  obtain ⟨f1, _, f3⟩ := hf
  have hflag : ∀ x ∈ edges ms, Opposite sol (ends x.1 x.2).1 (ends x.1 x.2).2 →
      (pass1 e2 sol ms).flag (ends x.1 x.2).1 ≠ 0 ∧ (pass1 e2 sol ms).flag (ends x.1 x.2).2 ≠ 0 := by
    intro x hx ho
    obtain ⟨hm, he⟩ := mem_edges.1 hx
    obtain ⟨ma, mb⟩ := ends_mem (G.vol4 _ hm) he
    obtain ⟨a1, a2⟩ := opposite_abs G hm ma mb ho
    exact f3 x hx a1 a2 ho.mul
  unfold cuttet at h ⊢
  simp only at h ⊢
  by_cases hnb : (pass1 e2 sol ms).nb = 0
  · rw [if_pos hnb] at h ⊢
    refine ⟨⟨fun p _ => ⟨rfl, rfl⟩, ?_, ?_, ?_, ?_⟩, ?_⟩
    · intro a b hpos; simp [noTab, Tab.find] at hpos
    · intro a b a' b' hpos; simp [noTab, Tab.find] at hpos
    · intro q hq; simp at hq
    · intro x hx hw _
      exact absurd hnb (f1 _ (hflag x hx hw.1).1)
    · have : ∀ m : LTet, cut4 noTab junk m = ([m], false) := fun m =>
        cut4_none _ _ (by intro e _; simp [vxOf, noTab, Tab.find])
      simp only [this]
      induction ms with
      | nil => rfl
      | cons a l _ => simp
  · rw [if_neg hnb] at h ⊢
    by_cases hal : alloc = false
    · rw [if_pos hal] at h; exact absurd rfl h
    rw [if_neg hal] at h ⊢
    obtain ⟨T, hT⟩ := addReq_ok G.mem (ms.flatMap reqEdges) noTab
    have hT0 := addReq_spec _ hT (by intro i j; exact .inl rfl)
    simp only [hT] at h ⊢
    cases hp : points E eps e2 (pass1 e2 sol ms).flag (edges ms) ⟨c, sol, T, 0⟩ with
    | none => simp only [hp] at h; exact absurd rfl h
    | some s =>
      simp only
      have I0 : Inv E eps c sol ms [] (⟨c, sol, T, 0⟩ : S3 K) := by
        have hn : ∀ a b, ¬ 0 < T.find a b := by
          intro a b hpos
          rcases hT0 (min a b) (max a b) with h | h <;> simp only [Tab.find, h] at hpos <;> omega
        refine ⟨fun p _ => ⟨rfl, rfl⟩, fun a b hpos => absurd hpos (hn a b),
          fun a b a' b' hpos => absurd hpos (hn a b), ?_, ?_⟩
        · intro q hq; simp at hq
        · intro x hx; simp at hx
      have := points_spec G.half G.small G.mem G.fresh G.vol4 G.vals hflag (edges ms) (fun _ h => h) I0 hp
      rw [List.nil_append] at this
      exact ⟨this, by trivial⟩

theorem Inv.points (G : Given E eps e2 sol ms) {s : S3 K} (I : Inv E eps c sol ms (edges ms) s) :
    EdgePoints E eps c sol ms s.c s.sol fun a b => (s.tab.find a b).toNat := by
  have hpos : ∀ a b, (s.tab.find a b).toNat ≠ 0 ↔ 0 < s.tab.find a b := by intro a b; omega
  refine ⟨fun a b => by simp only [find_comm s.tab a b], ?_, ?_, ?_, ?_, ?_⟩
  · intro a b
    rw [hpos]
    constructor
    · intro h
      obtain ⟨q, _, _, hw, _⟩ := I.pt a b h
      exact hw
    · rintro ⟨ho, m, hm, hs, ha, hb⟩
      obtain ⟨e, he, h | h⟩ := exists_edge (G.vol4 m hm) ha hb ho.ne
      · have := I.done (m, e) (mem_edges.2 ⟨hm, he⟩)
        rw [h] at this
        exact this ⟨ho, m, hm, hs, ha, hb⟩ hs
      · have := I.done (m, e) (mem_edges.2 ⟨hm, he⟩)
        rw [h] at this
        rw [find_comm]
        exact this ⟨ho.symm, m, hm, hs, hb, ha⟩ hs
  · intro a b h
    obtain ⟨q, _, hq, _⟩ := I.pt a b ((hpos a b).1 h)
    exact ⟨q, by rw [hq]; rfl⟩
  · intro a b a' b' h he
    have h1 := (hpos a b).1 h
    have h2 : s.tab.find a' b' = s.tab.find a b := by omega
    exact I.inj a b a' b' h1 h2
  · intro a b h
    obtain ⟨q, _, hq, _, hz, hO⟩ := I.pt a b ((hpos a b).1 h)
    have : (s.tab.find a b).toNat = E.new q := by rw [hq]; rfl
    simp only [this]
    exact ⟨hz, hO⟩
  · intro m hm p hp
    exact I.keep p fun i _ hc => G.fresh.out i m hm (hc ▸ hp)

/-! ### Signs -/

/-- Code of the sign. -/
def sg (x : K) : Nat := if 0 < x then 1 else if x < 0 then 2 else 0

theorem sg_pos {x : K} : sg x = 1 ↔ 0 < x := by
  unfold sg
  split
  · simp_all
  · split <;> simp_all

theorem sg_neg {x : K} : sg x = 2 ↔ x < 0 := by
  unfold sg
  split
  · rename_i h; simp [h.le]
  · split <;> simp_all

theorem sg_zero {x : K} : sg x = 0 ↔ x = 0 := by
  unfold sg
  split
  · rename_i h; simp [h.ne']
  · split
    · rename_i h; simp [h.ne]
    · rename_i h1 h2; simp [le_antisymm (not_lt.1 h1) (not_lt.1 h2)]

theorem sg_le (x : K) : sg x = 0 ∨ sg x = 1 ∨ sg x = 2 := by
  unfold sg
  split
  · simp
  · split <;> simp

theorem opp_sg {sol : Nat → K} {a b : Nat} : opp (sg (sol a)) (sg (sol b)) = true ↔ Opposite sol a b := by
  unfold opp Opposite
  simp only [Bool.or_eq_true, Bool.and_eq_true, beq_iff_eq, sg_pos, sg_neg]
  exact or_comm

theorem mem_signs {v : List Nat} (h4 : v.length = 4) (sol : Nat → K) :
    v.map (fun p => sg (sol p)) ∈ signs := by
  have key : ∀ a, (a = 0 ∨ a = 1 ∨ a = 2) → ∀ b, (b = 0 ∨ b = 1 ∨ b = 2) → ∀ c,
      (c = 0 ∨ c = 1 ∨ c = 2) → ∀ d, (d = 0 ∨ d = 1 ∨ d = 2) → [a, b, c, d] ∈ signs := by
    rintro _ (rfl | rfl | rfl) _ (rfl | rfl | rfl) _ (rfl | rfl | rfl) _ (rfl | rfl | rfl) <;> decide
  rw [list4 0 h4]
  exact key _ (sg_le _) _ (sg_le _) _ (sg_le _) _ (sg_le _)

theorem getD_map_sg {v : List Nat} (sol : Nat → K) {i : Nat} (hi : i < v.length) :
    (v.map fun p => sg (sol p)).getD i 0 = sg (sol (v.getD i 0)) := by
  rw [List.getD_eq_getElem _ _ (by simpa using hi), List.getD_eq_getElem _ _ hi, List.getElem_map]

theorem flag_ext {f g : Nat} (hf : f < 64) (hg : g < 64)
    (h : ∀ e < 6, f.testBit e = g.testBit e) : f = g := by
  apply Nat.eq_of_testBit_eq
  intro i
  by_cases hi : i < 6
  · exact h i hi
  · have h6 : 64 ≤ 2 ^ i := Nat.pow_le_pow_right (n := 2) (by norm_num) (by omega : 6 ≤ i)
    rw [Nat.testBit_lt_two_pow (lt_of_lt_of_le hf h6), Nat.testBit_lt_two_pow (lt_of_lt_of_le hg h6)]

theorem flagS_bit {v : List Nat} (h4 : v.length = 4) (sol : Nat → K) {e : Nat} (he : e < 6) :
    (flagS (v.map fun p => sg (sol p))).testBit e = true ↔
      Opposite sol (v.getD (iare.getD e (0, 0)).1 0) (v.getD (iare.getD e (0, 0)).2 0) := by
  unfold flagS
  rw [(flagOf_bits _).2 e he]
  obtain ⟨h1, h2⟩ := iare_lt he
  rw [getD_map_sg sol (by omega), getD_map_sg sol (by omega)]
  rw [← opp_sg (sol := sol)]
  split <;> simp_all

section
variable {pt : Nat → Nat → Nat} {c' : Nat → Pt K} {sol' : Nat → K}

/-- Bits of the flag of a tetrahedron. -/
theorem flag_bit (P : EdgePoints E eps c sol ms c' sol' pt) {m : LTet} {e : Nat} (he : e < 6) :
    (flagOf fun e => pt (ends m e).1 (ends m e).2).testBit e = true ↔
      Wanted E.spl sol ms (ends m e).1 (ends m e).2 := by
  rw [(flagOf_bits _).2 e he, decide_eq_true_eq, Nat.pos_iff_ne_zero, P.iff]

theorem flag_sub (P : EdgePoints E eps c sol ms c' sol' pt) {m : LTet}
    (h4 : m.t.v.length = 4) {e : Nat} (he : e < 6)
    (h : (flagOf fun e => pt (ends m e).1 (ends m e).2).testBit e = true) :
    (flagS (m.t.v.map fun p => sg (sol p))).testBit e = true :=
  (flagS_bit h4 sol he).2 ((flag_bit P he).1 h).1

theorem flag_eq (P : EdgePoints E eps c sol ms c' sol' pt) {m : LTet} (hm : m ∈ ms)
    (h4 : m.t.v.length = 4) (hs : (E.spl m.ref).isSome) :
    (flagOf fun e => pt (ends m e).1 (ends m e).2) = flagS (m.t.v.map fun p => sg (sol p)) := by
  refine flag_ext (flagOf_bits _).1 (flagOf_bits _).1 fun e he => ?_
  rw [Bool.eq_iff_iff, flag_bit P he]
  refine Iff.trans ?_ (flagS_bit h4 sol he).symm
  obtain ⟨ma, mb⟩ := ends_mem h4 he
  exact ⟨fun h => h.1, fun h => ⟨h, m, hm, hs, ma, mb⟩⟩

/-- The pieces of one tetrahedron that is cut. -/
theorem cut4_pieces (P : EdgePoints E eps c sol ms c' sol' pt) {m : LTet} (hm : m ∈ ms) (wf : WF m.t)
    {ch : List CTet}
    (hsp : split (flagOf fun e => pt (ends m e).1 (ends m e).2) junk
      (fun e => pt (ends m e).1 (ends m e).2) m.t = some ch) :
    ∀ x ∈ ch, ∃ k ∈ kids (flagOf fun e => pt (ends m e).1 (ends m e).2)
        (csOf (flagOf fun e => pt (ends m e).1 (ends m e).2) m.t.v),
      x.v = k.v.map (val m.t (fun e => pt (ends m e).1 (ends m e).2) 0) ∧ k.v.length = 4 ∧
      ∀ p ∈ k.v, (∃ i < 4, p = .corner i) ∨ ∃ e < 6, pt (ends m e).1 (ends m e).2 ≠ 0 ∧ p = .mid e := by
  obtain ⟨⟨h1, h2⟩, rfl⟩ := split_kids wf hsp
  intro x hx
  obtain ⟨k, hk, rfl⟩ := List.mem_map.1 hx
  refine ⟨k, hk, rfl, (kid_vert h1 h2 hk).1, fun p hp => ?_⟩
  rcases (kid_vert h1 h2 hk).2 p hp with h | ⟨e, he, hb, rfl⟩
  · exact .inl h
  · refine .inr ⟨e, he, ?_, rfl⟩
    rw [(flagOf_bits _).2 e he, decide_eq_true_eq] at hb
    exact Nat.pos_iff_ne_zero.1 hb

end

/-! ### C74 -/

/-- **C74.** The vertices are kept with their values; the new points are one for each edge to be
cut, on the zero of the level set, with value 0.  Each tetrahedron of the result is a piece of one of
the mesh. -/
theorem C74_points (G : Given E eps e2 sol ms)
    (h : (cuttet E alloc eps e2 junk c sol ms).ret ≠ 0) :
    ∃ pt, EdgePoints E eps c sol ms (cuttet E alloc eps e2 junk c sol ms).s.c
        (cuttet E alloc eps e2 junk c sol ms).s.sol pt ∧
      ∀ x ∈ (cuttet E alloc eps e2 junk c sol ms).ms, ∃ m ∈ ms, Piece pt m x := by
  obtain ⟨I, hms⟩ := cuttet_spec G h
  have P := I.points G
  refine ⟨_, P, ?_⟩
  rw [hms]
  generalize (cuttet E alloc eps e2 junk c sol ms).s = s at *
  intro x hx
  obtain ⟨m, hm, hx⟩ := List.mem_flatMap.1 hx
  refine ⟨m, hm, ?_⟩
  unfold cut4 at hx
  simp only at hx
  split at hx
  · simp only [List.mem_map] at hx
    obtain ⟨y, hy, rfl⟩ := hx
    cases hsp : split (flagOf (vxOf s.tab m)) junk (vxOf s.tab m) m.t with
    | none =>
      rw [hsp] at hy
      simp only [Option.getD_none, List.mem_singleton] at hy
      subst hy
      exact ⟨rfl, G.vol4 m hm, fun p hp => .inl hp⟩
    | some ch =>
      rw [hsp] at hy
      obtain ⟨k, _, hv, hl, hp⟩ := cut4_pieces P hm (G.wf m hm).1 hsp y hy
      refine ⟨rfl, by simp only [hv, List.length_map, hl], fun p hpm => ?_⟩
      simp only [hv, List.mem_map] at hpm
      obtain ⟨q, hq, rfl⟩ := hpm
      rcases hp q hq with ⟨i, hi, rfl⟩ | ⟨e, he, hne, rfl⟩
      · left
        simp only [val]
        rw [List.getD_eq_getElem _ _ (by rw [G.vol4 m hm]; exact hi)]
        exact List.getElem_mem _
      · right
        obtain ⟨ma, mb⟩ := ends_mem (G.vol4 m hm) he
        exact ⟨_, ma, _, mb, hne, rfl⟩
  · simp only [List.mem_singleton] at hx
    subst hx
    exact ⟨rfl, G.vol4 _ hm, fun p hp => .inl hp⟩

/-- **C74.** No tetrahedron of a reference that is split crosses the level set any more, and it has
a vertex that is not on the level set (unless a tetrahedron of the mesh has none). -/
theorem C74_sides (G : Given E eps e2 sol ms)
    (hnz : ∀ m ∈ ms, ∃ p ∈ m.t.v, sol p ≠ 0)
    (h : (cuttet E alloc eps e2 junk c sol ms).ret ≠ 0) :
    ∀ x ∈ (cuttet E alloc eps e2 junk c sol ms).ms, (E.spl x.ref).isSome →
      OneSide (cuttet E alloc eps e2 junk c sol ms).s.sol x.t.v ∧
      ∃ p ∈ x.t.v, (cuttet E alloc eps e2 junk c sol ms).s.sol p ≠ 0 := by
  obtain ⟨I, hms⟩ := cuttet_spec G h
  have P := I.points G
  rw [hms]
  generalize (cuttet E alloc eps e2 junk c sol ms).s = s at *
  intro x hx hs
  obtain ⟨m, hm, hx⟩ := List.mem_flatMap.1 hx
  have h4 := G.vol4 m hm
  have href : x.ref = m.ref := by
    unfold cut4 at hx
    simp only at hx
    split at hx
    · simp only [List.mem_map] at hx
      obtain ⟨y, _, rfl⟩ := hx
      rfl
    · simp only [List.mem_singleton] at hx
      rw [hx]
  rw [href] at hs
  have hfl := flag_eq P hm h4 hs
  have hσ := mem_signs h4 sol
  have hold : ∀ p ∈ m.t.v, s.sol p = sol p := fun p hp => (P.old m hm p hp).2
  by_cases h0 : flagS (m.t.v.map fun p => sg (sol p)) = 0
  · -- no change of sign
    have hn : ∀ a ∈ m.t.v, ∀ b ∈ m.t.v, ¬ Opposite sol a b := by
      intro a ha b hb ho
      obtain ⟨e, he, hh | hh⟩ := exists_edge h4 ha hb ho.ne
      · have := (flagS_bit h4 sol he).2 (show Opposite sol (ends m e).1 (ends m e).2 by rw [hh]; exact ho)
        rw [h0, Nat.zero_testBit] at this; cases this
      · have := (flagS_bit h4 sol he).2 (show Opposite sol (ends m e).1 (ends m e).2 by rw [hh]; exact ho.symm)
        rw [h0, Nat.zero_testBit] at this; cases this
    have hx : x = m := by
      unfold cut4 at hx
      have h0' : flagOf (vxOf s.tab m) = 0 := hfl.trans h0
      simp only [h0'] at hx
      rw [if_neg (by decide)] at hx
      simpa using hx
    subst hx
    refine ⟨?_, ?_⟩
    · by_contra hc
      unfold OneSide at hc
      rw [not_or] at hc
      push Not at hc
      obtain ⟨⟨a, ha, ha'⟩, b, hb, hb'⟩ := hc
      rw [hold a ha] at ha'
      rw [hold b hb] at hb'
      exact hn a ha b hb (.inl ⟨ha', hb'⟩)
    · obtain ⟨p, hp, hp0⟩ := hnz x hm
      exact ⟨p, hp, by rw [hold p hp]; exact hp0⟩
  · obtain ⟨hpat, hruns⟩ := runs_sides _ hσ h0
    unfold cut4 at hx
    have hfl' : flagOf (vxOf s.tab m) = flagS (m.t.v.map fun p => sg (sol p)) := hfl
    simp only [hfl'] at hx
    rw [if_pos hpat] at hx
    have h64 : flagS (m.t.v.map fun p => sg (sol p)) < 64 := hfl ▸ (flagOf_bits _).1
    obtain ⟨ch, hsp⟩ := split_some (Nat.one_le_iff_ne_zero.2 h0) h64 junk (vxOf s.tab m) m.t
    rw [hsp] at hx
    simp only [Option.getD_some, List.mem_map] at hx
    obtain ⟨y, hy, rfl⟩ := hx
    rw [← hfl'] at hsp
    obtain ⟨k, hk, hv, hl, hp⟩ := cut4_pieces P hm (G.wf m hm).1 hsp y hy
    have hk1 := hruns (csOf (flagS (m.t.v.map fun p => sg (sol p))) m.t.v)
      (filter_mem_subs _ _) k (by rw [← hfl]; exact hk)
    have hval : ∀ q ∈ k.v, sg (s.sol (val m.t (vxOf s.tab m) 0 q)) =
        sgAt (m.t.v.map fun p => sg (sol p)) q := by
      intro q hq
      rcases hp q hq with ⟨i, hi, rfl⟩ | ⟨e, he, hne, rfl⟩
      · simp only [val, sgAt]
        rw [getD_map_sg sol (by omega), hold]
        rw [List.getD_eq_getElem _ _ (by omega)]
        exact List.getElem_mem _
      · simp only [val, sgAt]
        exact sg_zero.2 (P.zero _ _ hne).1
    have hmap : k.v.map (sgAt (m.t.v.map fun p => sg (sol p))) = y.v.map fun p => sg (s.sol p) := by
      rw [hv, List.map_map]
      exact List.map_congr_left fun q hq => (hval q hq).symm
    rw [hmap] at hk1
    simp only [oneSide, Bool.and_eq_true, Bool.or_eq_true, List.all_eq_true, List.mem_map,
      forall_exists_index, and_imp, forall_apply_eq_imp_iff₂, bne_iff_ne, ne_eq, List.any_eq_true,
      exists_exists_and_eq_and, sg_pos, sg_neg, sg_zero] at hk1
    refine ⟨?_, hk1.2⟩
    rcases hk1.1 with h | h
    · exact .inr fun p hp => not_lt.1 (h p hp)
    · exact .inl fun p hp => not_lt.1 (h p hp)

theorem countP_sg (v : List Nat) : ((v.map fun p => sg (sol p)).count 1 = v.countP fun p => decide (0 < sol p)) ∧
    ((v.map fun p => sg (sol p)).count 2 = v.countP fun p => decide (sol p < 0)) := by
  constructor
  · rw [List.count_eq_countP, List.countP_map]
    apply List.countP_congr
    intro p _
    simp [sg_pos]
  · rw [List.count_eq_countP, List.countP_map]
    apply List.countP_congr
    intro p _
    simp [sg_neg]

/-- **C74.** There is no hanging node: the faces are the faces of the mesh, cut along the new points,
and new inner faces, each shared by two tetrahedra.  For the references that are not split (they may
have neighbours that are) this needs that a tetrahedron does not have two vertices on each side; it
is false otherwise (`Ex.C74_hanging_observed`). -/
theorem C74_conform_partial (G : Given E eps e2 sol ms)
    (hs : ∀ m ∈ ms, (E.spl m.ref).isSome ∨ ¬ TwoTwo sol m.t.v)
    (h : (cuttet E alloc eps e2 junk c sol ms).ret ≠ 0) :
    ∃ pt, EdgePoints E eps c sol ms (cuttet E alloc eps e2 junk c sol ms).s.c
        (cuttet E alloc eps e2 junk c sol ms).s.sol pt ∧
      ∃ inner : Multiset (Multiset Nat),
        allFaces 0 ((cuttet E alloc eps e2 junk c sol ms).ms.map (·.t.v)) =
          (allFaces 0 (ms.map (·.t.v))).bind (cutTri pt) + inner + inner := by
  obtain ⟨I, hms⟩ := cuttet_spec G h
  have P := I.points G
  refine ⟨_, P, ?_⟩
  rw [hms]
  generalize (cuttet E alloc eps e2 junk c sol ms).s = s at *
  have hone : ∀ m ∈ ms, (cut4 s.tab junk m).1.map (·.t.v) =
      (splitOne (fun a b => (s.tab.find a b).toNat) junk ⟨m.t, false, false⟩).map (·.v) := by
    intro m hm
    have h4 := G.vol4 m hm
    have hvx : edgePt (fun a b => (s.tab.find a b).toNat) ⟨m.t, false, false⟩ = vxOf s.tab m := by
      funext e
      simp [edgePt, vxOf, ends]
    unfold splitOne cut4
    simp only [hvx]
    have hcase : flagOf (vxOf s.tab m) = 0 ∨ flagOf (vxOf s.tab m) ∈ patterns := by
      rcases hs m hm with hs | hs
      · have hfl : flagOf (vxOf s.tab m) = _ := flag_eq P hm h4 hs
        rw [hfl]
        by_cases h0 : flagS (m.t.v.map fun p => sg (sol p)) = 0
        · exact .inl h0
        · exact .inr (runs_sides _ (mem_signs h4 sol) h0).1
      · refine runs_subsets _ (mem_signs h4 sol) ?_ _ (flagOf_bits _).1 fun e he hb => flag_sub P h4 he hb
        rw [(countP_sg m.t.v).1, (countP_sg m.t.v).2]
        unfold TwoTwo at hs
        rwa [not_and_or] at hs
    rcases hcase with h0 | hp
    · rw [h0, if_neg (by decide)]
      simp [split, prog]
    · rw [if_pos hp]
      simp
  have hall : (ms.flatMap fun m => (cut4 s.tab junk m).1).map (·.t.v) =
      (splitAll (fun a b => (s.tab.find a b).toNat) junk
        (ms.map fun m => ⟨m.t, false, false⟩)).map (·.v) := by
    unfold splitAll
    rw [List.flatMap_map, List.map_flatMap, List.map_flatMap]
    exact List.flatMap_congr hone
  have hv : ms.map (·.t.v) = (ms.map fun m => (⟨m.t, false, false⟩ : MTet)).map (·.t.v) := by
    rw [List.map_map]; rfl
  rw [hall, hv]
  refine splitAll_conforming P.symm junk fun m' hm' => ?_
  obtain ⟨m, hm, rfl⟩ := List.mem_map.1 hm'
  refine ⟨(G.wf m hm).1, (G.wf m hm).2, ?_⟩
  intro e _ hc
  simp at hc

end

end Mmg.Ls3
