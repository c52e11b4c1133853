/-
  Properties of the search of edge data around an edge (C61), and concrete cases and findings for
  C59, C60 and C61. Specification: see ShellProps.
-/
import Verif.ShellTag

namespace Mmg.Shell

open Mmg.Split3 Mmg.Swap23

section
variable {A : Nat → Nat} {V : Nat → List Nat} {used : Nat → Prop} {na nb : Nat}

/-- The tetrahedron knows that its edge `i` is a boundary edge: it has a slot, and there the edge or
one of the two faces through it has the boundary tag. -/
def Marked (x : X) (k i : Nat) : Prop :=
  x.xt k ≠ 0 ∧ (hasB (x.cell (x.xt k) i).1 BDY = true ∨
    hasB (x.ftag (x.xt k) (ifar i).1) BDY = true ∨ hasB (x.ftag (x.xt k) (ifar i).2) BDY = true)

theorem or_bdy {t : Nat} (h : hasB t BDY = true) : t ||| BDY = t := by
  have hb : t.testBit 4 = true := by
    simp only [hasB, BDY, decide_eq_true_eq] at h
    by_contra hc
    apply of_decide_eq_true h
    apply Nat.eq_of_testBit_eq
    intro j
    rw [Nat.testBit_and, Nat.zero_testBit, show (16 : Nat) = 2 ^ 4 by rfl, Nat.testBit_two_pow]
    by_cases hj : 4 = j
    · subst hj; simpa using hc
    · simp [hj]
  apply Nat.eq_of_testBit_eq
  intro j
  rw [Nat.testBit_or, show BDY = 2 ^ 4 by rfl, Nat.testBit_two_pow]
  by_cases hj : 4 = j
  · subst hj; simp [hb]
  · simp [hj]

theorem getBody_spec (x : X) (s : Nat × Int) (k i f : Nat) :
    ((getBody x s k i f).2 = true ↔ Marked x k i) ∧
    (Marked x k i → (getBody x s k i f).1 =
      (s.1 ||| ((x.cell (x.xt k) i).1 ||| BDY), (x.cell (x.xt k) i).2)) ∧
    (¬ Marked x k i → (getBody x s k i f).1.1 = s.1) := by
  unfold getBody Marked bdyFace
  by_cases h0 : x.xt k = 0
  · simp [h0]
  · by_cases h1 : hasB (x.cell (x.xt k) i).1 BDY = true
    · simp [h0, h1, or_bdy h1]
    · simp only [Bool.not_eq_true] at h1
      by_cases h2 : (hasB (x.ftag (x.xt k) (ifar i).1) BDY ||
        hasB (x.ftag (x.xt k) (ifar i).2) BDY) = true
      · simp only [h0, h1, h2, if_false, if_true, Bool.false_eq_true]
        rw [Bool.or_eq_true] at h2
        simp [h2, h0]
      · simp only [Bool.not_eq_true, Bool.or_eq_false_iff] at h2
        simp [h0, h1, h2.1, h2.2]

theorem run_get {x : X} (d : Nat × Nat) (s : Nat × Int) : ∀ n,
    (∀ i < n, stopN A V (getBody x) na nb d s i = false) →
    (runN A V (getBody x) na nb d s n).1 = s.1 ∧
    ∀ i, 1 ≤ i → i ≤ n → ¬ Marked x (seq A V na nb d i).1
      (edgeOf V na nb (seq A V na nb d i).1) := by
  intro n
  induction n with
  | zero => intro _; exact ⟨rfl, by intro i h1 h2; omega⟩
  | succ n ih =>
    intro hst
    obtain ⟨h1, h2⟩ := ih (fun i hi => hst i (by omega))
    have hs := hst n (by omega)
    unfold stopN at hs
    obtain ⟨g1, g2, g3⟩ := getBody_spec x (runN A V (getBody x) na nb d s n)
      (seq A V na nb d (n + 1)).1 (edgeOf V na nb (seq A V na nb d (n + 1)).1)
      (seq A V na nb d (n + 1)).2
    have hnm : ¬ Marked x (seq A V na nb d (n + 1)).1
        (edgeOf V na nb (seq A V na nb d (n + 1)).1) := by
      intro hmk
      rw [g1.2 hmk] at hs
      cases hs
    exact ⟨(g3 hnm).trans h1, upto_succ h2 hnm⟩

/-- **C61.** `MMG3D_get_shellEdgeTag` always ends. When a tetrahedron around the edge knows that the
edge is a boundary edge, the tags of the edge in such a tetrahedron (with the boundary tag) are added
to the given ones and its reference is given; when there is none, the tags are left as they are. -/
theorem C61_get (hm : Mesh A V used) {ne : Nat} (hne : ∀ k, used k → k ≤ ne)
    {fuel start ia : Nat} (hf : ne ≤ fuel) (hs : used start) (hia : ia < 6) (x : X)
    (s : Nat × Int) :
    ∃ s', getTag A V fuel start ia x s = .ok s' ∧
      ((∃ k i, InShell A V start ia k ∧
          IsEdge (V k) (ends (V start) ia).1 (ends (V start) ia).2 i ∧ Marked x k i ∧
          s' = (s.1 ||| ((x.cell (x.xt k) i).1 ||| BDY), (x.cell (x.xt k) i).2)) ∨
       ((∀ k i, InShell A V start ia k →
          IsEdge (V k) (ends (V start) ia).1 (ends (V start) ia).2 i → ¬ Marked x k i) ∧
        s'.1 = s.1)) := by
  obtain ⟨hd, _, _, _, hed⟩ := dart_start hm hs hia
  have hse := fun {k} (hk : InShell A V start ia k) => shell_edge hm hs hia hk
  have hself : InShell A V start ia start := .refl
  unfold getTag
  obtain ⟨g1, g2, g3⟩ := getBody_spec x s start ia 0
  revert g1 g2 g3
  generalize getBody x s start ia 0 = R
  intro g1 g2 g3
  match R with
  | (s1, true) =>
    have hmk := g1.1 rfl
    refine ⟨s1, rfl, .inl ⟨start, ia, hself, ((hse hself).2.2 ia).2 hed, hmk, g2 hmk⟩⟩
  | (s1, false) =>
    have hnm : ¬ Marked x start ia := fun hmk => by
      have := g1.2 hmk
      cases this
    have h1 : s1.1 = s.1 := g3 hnm
    have hok := bothDirs_ok (body := getBody x) hm hne hf hs hia s1
    have hin1 : ∀ n i, Alive A V (ends (V start) ia).1 (ends (V start) ia).2 (start, (ifar ia).1) n →
        i ≤ n → InShell A V start ia
          (seq A V (ends (V start) ia).1 (ends (V start) ia).2 (start, (ifar ia).1) i).1 := by
      intro n i ha hi
      have := (seq_path hm hd ha 0 i (by omega)).1
      rwa [Nat.zero_add] at this
    have hin2 : ∀ n i, Alive A V (ends (V start) ia).1 (ends (V start) ia).2
        (rev V (ends (V start) ia).1 (ends (V start) ia).2 (start, (ifar ia).1)) n →
        i ≤ n → InShell A V start ia
          (seq A V (ends (V start) ia).1 (ends (V start) ia).2
            (rev V (ends (V start) ia).1 (ends (V start) ia).2 (start, (ifar ia).1)) i).1 := by
      intro n i ha hi
      have := (seq_path hm hd.rv.1 ha 0 i (by omega)).1
      rwa [Nat.zero_add] at this
    simp only
    revert hok
    generalize bothDirs A V (getBody x) fuel start ia s1 = R
    intro hok
    cases hok with
    | closed n hc hst =>
      obtain ⟨r1, r2⟩ := run_get _ _ n hst
      refine ⟨_, rfl, .inr ⟨fun k i hk hi => ?_, r1.trans h1⟩⟩
      have := ((hse hk).2.2 i).1 hi
      subst this
      obtain ⟨j, hj, rfl⟩ := (hc.reach hm (i := 0) (by omega) k).1 hk
      match j with
      | 0 => rw [show (seq A V (ends (V start) ia).1 (ends (V start) ia).2
                (start, (ifar ia).1) 0).1 = start from rfl, hed]; exact hnm
      | j + 1 => exact r2 (j + 1) (by omega) hj
    | opened n p ha hz hst hb hz' hst' =>
      obtain ⟨r1, r2⟩ := run_get _ _ n hst
      obtain ⟨r3, r4⟩ := run_get _ _ p hst'
      refine ⟨_, rfl, .inr ⟨fun k i hk hi => ?_, r3.trans (r1.trans h1)⟩⟩
      have := ((hse hk).2.2 i).1 hi
      subst this
      rcases ((two_paths hm hd ha hz hb hz').1 k).1 hk with (rfl | ⟨j, a, b, rfl⟩) | ⟨j, a, b, rfl⟩
      · rw [hed]; exact hnm
      · exact r2 j a b
      · exact r4 j a b
    | early1 n ha _ hst hst1 =>
      obtain ⟨r1, r2⟩ := run_get _ _ n hst
      refine ⟨_, rfl, .inl ⟨_, _, hin1 (n + 1) (n + 1) ha le_rfl,
        ((hse (hin1 (n + 1) (n + 1) ha le_rfl)).2.2 _).2 rfl, ?_, ?_⟩⟩
      · exact (getBody_spec x _ _ _ _).1.1 hst1
      · rw [← h1, ← r1]
        exact (getBody_spec x _ _ _ _).2.1 ((getBody_spec x _ _ _ _).1.1 hst1)
    | early2 n p ha hz hst hb hst' hst1 =>
      obtain ⟨r1, r2⟩ := run_get _ _ n hst
      obtain ⟨r3, r4⟩ := run_get _ _ p hst'
      refine ⟨_, rfl, .inl ⟨_, _, hin2 (p + 1) (p + 1) hb le_rfl,
        ((hse (hin2 (p + 1) (p + 1) hb le_rfl)).2.2 _).2 rfl, ?_, ?_⟩⟩
      · exact (getBody_spec x _ _ _ _).1.1 hst1
      · rw [← h1, ← r1, ← r3]
        exact (getBody_spec x _ _ _ _).2.1 ((getBody_spec x _ _ _ _).1.1 hst1)

/-- **C61.** When the tetrahedra around the edge that know it as a boundary edge agree on its tag
`t` and reference `r`, `MMG3D_get_shellEdgeTag` gives these, whatever the starting tetrahedron. -/
theorem C61_get_agree (hm : Mesh A V used) {ne : Nat} (hne : ∀ k, used k → k ≤ ne)
    {fuel start ia : Nat} (hf : ne ≤ fuel) (hs : used start) (hia : ia < 6) (x : X)
    (s : Nat × Int) {t : Nat} {r : Int}
    (hag : ∀ k i, InShell A V start ia k →
      IsEdge (V k) (ends (V start) ia).1 (ends (V start) ia).2 i → Marked x k i →
      (x.cell (x.xt k) i).1 ||| BDY = t ∧ (x.cell (x.xt k) i).2 = r)
    (hex : ∃ k i, InShell A V start ia k ∧
      IsEdge (V k) (ends (V start) ia).1 (ends (V start) ia).2 i ∧ Marked x k i) :
    getTag A V fuel start ia x s = .ok (s.1 ||| t, r) := by
  obtain ⟨s', h1, h2⟩ := C61_get hm hne hf hs hia x s
  rw [h1]
  rcases h2 with ⟨k, i, hk, hi, hmk, rfl⟩ | ⟨hno, _⟩
  · obtain ⟨a, b⟩ := hag k i hk hi hmk
    rw [a, b]
  · obtain ⟨k, i, hk, hi, hmk⟩ := hex
    exact absurd hmk (hno k i hk hi)

/-- **C61.** `MMG5_srcbdy` always ends and says whether a face through the edge is a boundary face,
provided both sides of a face agree and each face without neighbour is a boundary face. -/
theorem C61_srcbdy {m : M} (hm : Mesh m.A m.V used) (hb : TwoSided m used)
    (hout : ∀ k, used k → ∀ f, f < 4 → link m.A k f = 0 → m.bdy k f = true)
    {ne : Nat} (hne : ∀ k, used k → k ≤ ne)
    {fuel start ia : Nat} (hf : ne ≤ fuel) (hs : used start) (hia : ia < 6) :
    ∃ b, srcbdy m fuel start ia = some b ∧
      (b = true ↔ ∃ k f, InShell m.A m.V start ia k ∧
        Thru (m.V k) (ends (m.V start) ia).1 (ends (m.V start) ia).2 f ∧ m.bdy k f = true) := by
  obtain ⟨hd, hrev, hpiv, _, _⟩ := dart_start hm hs hia
  unfold srcbdy InShell
  generalize (ends (m.V start) ia).1 = na at *
  generalize (ends (m.V start) ia).2 = nb at *
  by_cases c0 : m.bdy start (ifar ia).1 = true
  · rw [if_pos c0]
    exact ⟨true, rfl, by simp only [true_iff]; exact ⟨start, _, .refl, hd.thru, c0⟩⟩
  · rw [if_neg c0]
    have key := oneDir_spec (body := srcBody m) hm hd () fuel fuel 0 (by omega)
      (by intro i hi; omega) (by intro i h1 h2; omega) (by intro i hi; omega)
    have e0 : seq m.A m.V na nb (start, (ifar ia).1) 0 = (start, (ifar ia).1) := rfl
    have e1 : runN m.A m.V (srcBody m) na nb (start, (ifar ia).1) () 0 = () := rfl
    rw [e0, e1, hpiv] at key
    revert key
    simp only
    generalize oneDir m.A m.V (srcBody m) start na nb fuel (link m.A start (ifar ia).1 / 4)
      ((m.V start).getD (ifar ia).2 0) () = R
    intro key
    match R, key with
    | .noFuel, ⟨ha, hn⟩ =>
      have := alive_bound hm hne hd ha hn
      omega
    | .early k s', ⟨n, ha, _, hst, hs', _, hs''⟩ =>
      refine ⟨true, rfl, ?_⟩
      simp only [true_iff]
      have hp := (seq_path hm hd ha 0 (n + 1) (by omega)).1
      rw [Nat.zero_add] at hp
      exact ⟨_, _, hp, (seq_dart hm hd ha (n + 1) le_rfl).thru, hs'⟩
    | .fin adj s', ⟨n, ha, hnn, hst, hs', hcase⟩ =>
      refine ⟨false, rfl, ?_⟩
      simp only [Bool.false_eq_true, false_iff]
      have hno : ∀ j ≤ n, m.bdy (seq m.A m.V na nb (start, (ifar ia).1) j).1
          (seq m.A m.V na nb (start, (ifar ia).1) j).2 ≠ true := by
        intro j hj
        match j with
        | 0 => exact c0
        | j + 1 =>
          have := hst j (by omega)
          simp only [stopN, srcBody] at this
          rw [this]; simp
      rcases hcase with ⟨_, h0⟩ | ⟨_, ha', hbk⟩
      · have hdn := seq_dart hm hd ha n le_rfl
        exact absurd (hout _ hdn.used _ hdn.thru.1 h0) (hno n le_rfl)
      · have hc := chain_one hm hd ha' hnn hbk
        rintro ⟨k, f, hk, hf, hbf⟩
        obtain ⟨j, hj, rfl⟩ := (hc.reach hm (i := 0) (by omega) k).1 hk
        have hdj := seq_dart hm hc.dart hc.alive j hj
        rcases hc.face hm hj hf with rfl | ⟨hh, _⟩ | ⟨i, hi, h1, h2⟩
        · exact hno j hj hbf
        · cases hh
        · have hdi := seq_dart hm hc.dart hc.alive i hi
          have hp := hm.adj.pos _ hdi.used
          have := hb _ hdj.used f hf.1 (by omega)
          rw [h2, hbf] at this
          have t4 := hdi.thru.1
          rw [show (4 * (seq m.A m.V na nb (start, (ifar ia).1) i).1 +
                (seq m.A m.V na nb (start, (ifar ia).1) i).2) / 4 =
                (seq m.A m.V na nb (start, (ifar ia).1) i).1 by omega,
              show (4 * (seq m.A m.V na nb (start, (ifar ia).1) i).1 +
                (seq m.A m.V na nb (start, (ifar ia).1) i).2) % 4 =
                (seq m.A m.V na nb (start, (ifar ia).1) i).2 by omega] at this
          exact hno i hi this

/-! ### `MMG3D_update_shellEdgeTag` -/

/-- The tetrahedron already has the data: the update stops there. -/
def Already (x : X) (tag : Nat) (ref : Int) (k i : Nat) : Prop :=
  x.xt k ≠ 0 ∧ hasB (x.cell (x.xt k) i).1 BDY = true ∧ x.cell (x.xt k) i = (tag, ref)

def updG (tag : Nat) (ref : Int) (_ft : Nat → Nat) (_i : Nat) (c : Nat × Int) : Nat × Int :=
  (if really (c.1 ||| BDY) || really tag then clr (c.1 ||| tag) NOSURF else c.1 ||| tag, ref)

theorem updBody_eq {x : X} {tag k i : Nat} {ref : Int} (f : Nat) (h : ¬ Already x tag ref k i) :
    updBody tag ref x k i f = cellBody (updG tag ref) x k i f := by
  unfold updBody cellBody
  by_cases h0 : x.xt k = 0
  · simp [h0]
  · simp only [h0, if_false]
    have hc : (hasB (x.cell (x.xt k) i).1 BDY && decide ((x.cell (x.xt k) i).1 ||| BDY = tag) &&
        decide ((x.cell (x.xt k) i).2 = ref)) = false := by
      by_contra hc
      simp only [Bool.not_eq_false, Bool.and_eq_true, decide_eq_true_eq] at hc
      apply h
      refine ⟨h0, hc.1.1, ?_⟩
      rw [or_bdy hc.1.1] at hc
      exact Prod.ext hc.1.2 hc.2
    rw [hc]
    simp only [Bool.false_eq_true, if_false, updG, Prod.mk.injEq, and_true]
    congr 1
    funext s j
    by_cases hsj : s = x.xt k ∧ j = i
    · simp only [hsj, and_self, if_true]
    · simp only [hsj, if_false]

theorem run_upd {tag : Nat} {ref : Int} {x x0 : X} (hx : Slots x used) (d : Nat × Nat)
    {S : Nat → Prop} (h0 : Upd V na nb (updG tag ref) S x x0) (hS : ∀ k, S k → used k) :
    ∀ n, (∀ i, 1 ≤ i → i ≤ n → used (seq A V na nb d i).1 ∧ ¬ S (seq A V na nb d i).1) →
      (∀ i j, 1 ≤ i → 1 ≤ j → i ≤ n → j ≤ n →
        (seq A V na nb d i).1 = (seq A V na nb d j).1 → i = j) →
      (∀ i, 1 ≤ i → i ≤ n → ¬ Already x tag ref (seq A V na nb d i).1
        (edgeOf V na nb (seq A V na nb d i).1)) →
      runN A V (updBody tag ref) na nb d x0 n =
        runN A V (cellBody (updG tag ref)) na nb d x0 n ∧
      ∀ i < n, stopN A V (updBody tag ref) na nb d x0 i = false := by
  intro n
  induction n with
  | zero => intro _ _ _; exact ⟨rfl, by intro i hi; omega⟩
  | succ n ih =>
    intro hu hinj hal
    obtain ⟨h1, h2⟩ := ih (fun i a b => hu i a (by omega))
      (fun i j a b c e => hinj i j a b (by omega) (by omega)) (fun i a b => hal i a (by omega))
    have hrun := h0.run (A := A) hx d hS n (fun i a b => hu i a (by omega))
      (fun i j a b c e => hinj i j a b (by omega) (by omega))
    have hk := hu (n + 1) (by omega) le_rfl
    have hna : ¬ Already (runN A V (cellBody (updG tag ref)) na nb d x0 n) tag ref
        (seq A V na nb d (n + 1)).1 (edgeOf V na nb (seq A V na nb d (n + 1)).1) := by
      rintro ⟨a, b, c⟩
      apply hal (n + 1) (by omega) le_rfl
      have he : (runN A V (cellBody (updG tag ref)) na nb d x0 n).cell
          (x.xt (seq A V na nb d (n + 1)).1) (edgeOf V na nb (seq A V na nb d (n + 1)).1) =
          x.cell (x.xt (seq A V na nb d (n + 1)).1)
            (edgeOf V na nb (seq A V na nb d (n + 1)).1) := by
        apply hrun.other
        rintro q hq e hz _
        have hqu : used q := by
          rcases hq with hq | ⟨i, _, b', rfl⟩
          · exact hS q hq
          · exact (hu i (by omega) (by omega)).1
        have := hx q _ hqu hk.1 e (by rw [e]; exact hz)
        subst this
        rcases hq with hq | ⟨i, _, b', e'⟩
        · exact hk.2 hq
        · have := hinj (n + 1) i (by omega) (by omega) le_rfl (by omega) e'
          omega
      rw [hrun.xt] at a b c
      rw [he] at b c
      exact ⟨a, b, c⟩
    have hb := updBody_eq (seq A V na nb d (n + 1)).2 hna
    refine ⟨?_, ?_⟩
    · simp only [runN]
      rw [h1, hb]
    · intro i hi
      rcases Nat.lt_succ_iff_lt_or_eq.1 hi with h' | rfl
      · exact h2 i h'
      · simp only [stopN]
        rw [h1, hb]
        rfl

/-- **C61** (partial). `MMG3D_update_shellEdgeTag` gives the tags and the reference to the edge in
all the tetrahedra around it that have boundary data, and nowhere else, provided none of them has
already these data. Missing: when one of them has them, the update stops there (see
`C61_update_stops`). -/
theorem C61_update_partial (hm : Mesh A V used) {ne : Nat} (hne : ∀ k, used k → k ≤ ne)
    {fuel start ia : Nat} (hf : ne ≤ fuel) (hs : used start) (hia : ia < 6) {x : X}
    (hx : Slots x used) (tag : Nat) (ref : Int)
    (hno : ∀ k i, InShell A V start ia k →
      IsEdge (V k) (ends (V start) ia).1 (ends (V start) ia).2 i → ¬ Already x tag ref k i) :
    ∃ x', updTag A V fuel start ia tag ref x = .ok x' ∧
      ShellChange A V start ia (fun _ _ c =>
        (if really (c.1 ||| BDY) || really tag then clr (c.1 ||| tag) NOSURF else c.1 ||| tag, ref))
        x x' := by
  obtain ⟨hd, _, _, _, hed⟩ := dart_start hm hs hia
  have hse := fun {k} (hk : InShell A V start ia k) => shell_edge hm hs hia hk
  have hself : InShell A V start ia start := .refl
  have hst : ¬ Already x tag ref start ia := hno start ia hself (((hse hself).2.2 ia).2 hed)
  obtain ⟨x', g1, g2⟩ := both_cell (g := updG tag ref) hm hne hf hs hia hx
  refine ⟨x', ?_, g2.change hm hs hia⟩
  have e1 : updTag A V fuel start ia tag ref x =
      bothDirs A V (updBody tag ref) fuel start ia (cellBody (updG tag ref) x start ia 0).1 := by
    unfold updTag
    rw [updBody_eq 0 hst]
    rfl
  rw [e1]
  have hok := bothDirs_ok (body := updBody tag ref) hm hne hf hs hia
    (cellBody (updG tag ref) x start ia 0).1
  have hok' := bothDirs_ok (body := cellBody (updG tag ref)) hm hne hf hs hia
    (cellBody (updG tag ref) x start ia 0).1
  rw [g1] at hok'
  have hno' : ∀ k, InShell A V start ia k → ¬ Already x tag ref k
      (edgeOf V (ends (V start) ia).1 (ends (V start) ia).2 k) :=
    fun k hk => hno k _ hk (((hse hk).2.2 _).2 rfl)
  unfold InShell at hno'
  revert hok hok' hd hed hno'
  generalize (ends (V start) ia).1 = na
  generalize (ends (V start) ia).2 = nb
  intro hd hed hok hok' hno'
  have h0 : Upd V na nb (updG tag ref) (fun q => q = start) x
      (cellBody (updG tag ref) x start ia 0).1 := by
    have := (Upd.none (V := V) (na := na) (nb := nb) (g := updG tag ref) x).step hx (by simp) hs
      (by simp) 0
    rw [hed] at this
    simpa using this
  have hS : ∀ k, k = start → used k := by rintro k rfl; exact hs
  have hns : ∀ (y : X) k i f, (cellBody (updG tag ref) y k i f).2 = false := fun _ _ _ _ => rfl
  generalize bothDirs A V (updBody tag ref) fuel start ia
    (cellBody (updG tag ref) x start ia 0).1 = R at hok
  -- both loops follow the same paths
  have path1 : ∀ n i, Alive A V na nb (start, (ifar ia).1) n → i ≤ n →
      Relation.ReflTransGen (Nbr A V na nb) start (seq A V na nb (start, (ifar ia).1) i).1 := by
    intro n i ha hi
    have := (seq_path hm hd ha 0 i (by omega)).1
    rwa [Nat.zero_add] at this
  have path2 : ∀ n i, Alive A V na nb (rev V na nb (start, (ifar ia).1)) n → i ≤ n →
      Relation.ReflTransGen (Nbr A V na nb) start
        (seq A V na nb (rev V na nb (start, (ifar ia).1)) i).1 := by
    intro n i ha hi
    have := (seq_path hm hd.rv.1 ha 0 i (by omega)).1
    rwa [Nat.zero_add] at this
  have openrun : ∀ n p, Alive A V na nb (start, (ifar ia).1) n →
      link A (seq A V na nb (start, (ifar ia).1) n).1 (seq A V na nb (start, (ifar ia).1) n).2 = 0 →
      Alive A V na nb (rev V na nb (start, (ifar ia).1)) p →
      link A (seq A V na nb (rev V na nb (start, (ifar ia).1)) p).1
        (seq A V na nb (rev V na nb (start, (ifar ia).1)) p).2 = 0 →
      runN A V (updBody tag ref) na nb (rev V na nb (start, (ifar ia).1))
        (runN A V (updBody tag ref) na nb (start, (ifar ia).1)
          (cellBody (updG tag ref) x start ia 0).1 n) p =
      runN A V (cellBody (updG tag ref)) na nb (rev V na nb (start, (ifar ia).1))
        (runN A V (cellBody (updG tag ref)) na nb (start, (ifar ia).1)
          (cellBody (updG tag ref) x start ia 0).1 n) p ∧
      (∀ i < n, stopN A V (updBody tag ref) na nb (start, (ifar ia).1)
        (cellBody (updG tag ref) x start ia 0).1 i = false) ∧
      (∀ i < p, stopN A V (updBody tag ref) na nb (rev V na nb (start, (ifar ia).1))
        (runN A V (updBody tag ref) na nb (start, (ifar ia).1)
          (cellBody (updG tag ref) x start ia 0).1 n) i = false) := by
    intro n p ha hz hb hz'
    obtain ⟨_, i1, i2, i3⟩ := two_paths hm hd ha hz hb hz'
    have cond1 : ∀ i, 1 ≤ i → i ≤ n → used (seq A V na nb (start, (ifar ia).1) i).1 ∧
        ¬ (seq A V na nb (start, (ifar ia).1) i).1 = start := by
      intro i a b
      refine ⟨(seq_dart hm hd ha i b).used, fun e => ?_⟩
      have := i1 i 0 b (by omega) e
      omega
    obtain ⟨r1, r2⟩ := run_upd (A := A) hx (start, (ifar ia).1) h0 hS n cond1
      (fun i j _ _ => i1 i j) (fun i _ b => hno' _ (path1 n i ha b))
    have h1 := h0.run (A := A) hx (start, (ifar ia).1) hS n cond1 (fun i j _ _ => i1 i j)
    obtain ⟨r3, r4⟩ := run_upd (A := A) hx (rev V na nb (start, (ifar ia).1)) h1 (by
      rintro k (rfl | ⟨i, _, b, rfl⟩)
      · exact hs
      · exact (seq_dart hm hd ha i b).used) p (by
      intro i a b
      refine ⟨(seq_dart hm hd.rv.1 hb i b).used, ?_⟩
      rintro (e | ⟨j, _, c, e⟩)
      · exact i3 0 i (by omega) a b e
      · exact i3 j i c a b e) (fun i j _ _ => i2 i j) (fun i _ b => hno' _ (path2 p i hb b))
    refine ⟨?_, r2, ?_⟩
    · rw [r1, r3]
    · rw [r1]; exact r4
  have closedrun : ∀ n, Chain A V used na nb (start, (ifar ia).1) n true →
      runN A V (updBody tag ref) na nb (start, (ifar ia).1)
          (cellBody (updG tag ref) x start ia 0).1 n =
      runN A V (cellBody (updG tag ref)) na nb (start, (ifar ia).1)
          (cellBody (updG tag ref) x start ia 0).1 n ∧
      (∀ i < n, stopN A V (updBody tag ref) na nb (start, (ifar ia).1)
        (cellBody (updG tag ref) x start ia 0).1 i = false) := by
    intro n hc
    have hinj := hc.inj hm
    exact run_upd (A := A) hx (start, (ifar ia).1) h0 hS n (by
      intro i h1 h2
      refine ⟨(seq_dart hm hc.dart hc.alive i h2).used, fun e => ?_⟩
      have := hinj i 0 h2 (by omega) e
      omega) (fun i j _ _ => hinj i j) (fun i _ b => hno' _ (path1 n i hc.alive b))
  have uniq : ∀ (c : Nat × Nat) n n', Alive A V na nb c n →
      link A (seq A V na nb c n).1 (seq A V na nb c n).2 = 0 → Alive A V na nb c n' →
      n' ≤ n := by
    intro c n n' _ hz ha'
    by_contra hlt
    exact ha' n (by omega) hz
  cases hok' with
  | closed n hc hst1 =>
    obtain ⟨q1, q2⟩ := closedrun n hc
    have hlive := hc.live
    cases hok with
    | closed n' hc' _ =>
      have e : n' = n := by
        rcases Nat.lt_trichotomy n' n with hlt | h | hlt
        · exfalso
          have := (hc.closed rfl).2.2 (n' + 1) (by omega) (by omega)
          rw [(hc'.closed rfl).2.1] at this
          exact this rfl
        · exact h
        · exfalso
          have := (hc'.closed rfl).2.2 (n + 1) (by omega) (by omega)
          rw [(hc.closed rfl).2.1] at this
          exact this rfl
      subst e
      rw [q1]
    | opened n' p ha hz _ _ _ _ => exact absurd hz (hlive n')
    | early1 n' ha hnn _ hs' =>
      exfalso
      by_cases hlt : n' < n
      · rw [q2 n' hlt] at hs'
        cases hs'
      · have := hnn (n + 1) (by omega) (by omega)
        rw [(hc.closed rfl).2.1] at this
        exact this rfl
    | early2 n' p ha hz _ _ _ _ => exact absurd hz (hlive n')
  | opened n p ha hz hst1 hb hz' hst2 =>
    obtain ⟨q1, q2, q3⟩ := openrun n p ha hz hb hz'
    cases hok with
    | closed n' hc' _ => exact absurd hz (hc'.live n)
    | opened n' p' ha1 hz1 _ hb1 hz1' _ =>
      have e1 : n' = n := le_antisymm (uniq _ _ _ ha hz ha1) (uniq _ _ _ ha1 hz1 ha)
      have e2 : p' = p := le_antisymm (uniq _ _ _ hb hz' hb1) (uniq _ _ _ hb1 hz1' hb)
      subst e1 e2
      rw [q1]
    | early1 n' ha1 _ _ hs' =>
      have := uniq _ _ _ ha hz ha1
      rw [q2 n' (by omega)] at hs'
      cases hs'
    | early2 n' p' ha1 hz1 _ hb1 _ hs' =>
      have e1 : n' = n := le_antisymm (uniq _ _ _ ha hz ha1) (uniq _ _ _ ha1 hz1 ha)
      subst e1
      have := uniq _ _ _ hb hz' hb1
      rw [q3 p' (by omega)] at hs'
      cases hs'
  | early1 n ha _ hst1 hs' => exact absurd hs' (by simp [stopN, hns])
  | early2 n p ha hz hst1 hb hst2 hs' => exact absurd hs' (by simp [stopN, hns])

end

/-! ## Concrete cases

Three tetrahedra around the edge 1-2 (closed), or two of them (open). -/

namespace Ex

def V3 : Nat → List Nat
  | 1 => [1, 2, 3, 4] | 2 => [1, 2, 4, 5] | 3 => [1, 2, 5, 3] | _ => []

/-- Links by entry `4 (k-1) + 1 + face`. -/
def A3 : Nat → Nat
  | 3 => 4 * 2 + 3 | 4 => 4 * 3 + 2
  | 7 => 4 * 3 + 3 | 8 => 4 * 1 + 2
  | 11 => 4 * 1 + 3 | 12 => 4 * 2 + 2
  | _ => 0

def A2 : Nat → Nat
  | 3 => 4 * 2 + 3
  | 8 => 4 * 1 + 2
  | _ => 0

def U3 (k : Nat) : Prop := 1 ≤ k ∧ k ≤ 3
def U2 (k : Nat) : Prop := 1 ≤ k ∧ k ≤ 2

theorem mesh3 : Mesh A3 V3 U3 := by
  refine ⟨⟨fun k h => h.1, ?_⟩, ?_, ?_⟩
  · rintro k ⟨h1, h2⟩ f hf hl
    interval_cases k <;> interval_cases f <;>
      first | exact absurd rfl hl | exact ⟨⟨by decide, by decide⟩, by decide, by decide, by decide⟩
  · rintro k ⟨h1, h2⟩; interval_cases k <;> rfl
  · rintro k ⟨h1, h2⟩; interval_cases k <;> decide

theorem mesh2 : Mesh A2 V3 U2 := by
  refine ⟨⟨fun k h => h.1, ?_⟩, ?_, ?_⟩
  · rintro k ⟨h1, h2⟩ f hf hl
    interval_cases k <;> interval_cases f <;>
      first | exact absurd rfl hl | exact ⟨⟨by decide, by decide⟩, by decide, by decide, by decide⟩
  · rintro k ⟨h1, h2⟩; interval_cases k <;> rfl
  · rintro k ⟨h1, h2⟩; interval_cases k <;> decide

def m3 : M := ⟨A3, V3, fun _ => false, fun _ _ => false⟩
def m2 : M := ⟨A2, V3, fun _ => false, fun k f => link A2 k f = 0⟩

/-- A closed shell, and an open one that starts from the other end. -/
example : coquil m3 10240 1 0 = .shell [6, 12, 18] true false ∧
    coquil m2 10240 1 0 = .shell [12, 6] false true := ⟨rfl, rfl⟩

example : TwoSided m3 U3 ∧ TwoSided m2 U2 := by
  constructor
  · intro k _ f _ _; rfl
  · rintro k ⟨h1, h2⟩ f hf hl
    interval_cases k <;> interval_cases f <;> first | exact absurd rfl hl | decide

/-- **C59.** `MMG5_coquil` gives the shell of an edge (and not 0) when the starting tetrahedron is
required: only the other ones are checked. -/
theorem C59_start_required :
    ∃ m used, Mesh m.A m.V used ∧ TwoSided m used ∧ used 1 ∧ m.req 1 = true ∧
      coquil m 10240 1 0 = .shell [6, 12, 18] true false ∧ coquil m 10240 2 0 = .required :=
  ⟨{ m3 with req := fun k => k = 1 }, U3, mesh3, fun _ _ _ _ _ => rfl, ⟨le_rfl, by decide⟩, rfl,
    rfl, rfl⟩

/-- Slots for the tetrahedra 1 and 2; the faces 2 of 1 and 3 of 2 (the shared one) are boundary
faces, the edge 0 has tag `BDY + GEO` and reference 7. -/
def x0 : X :=
  ⟨fun k => if k = 1 ∨ k = 2 then k else 0,
   fun s f => if (s = 1 ∧ f = 2) ∨ (s = 2 ∧ f = 3) then 16 else 0,
   fun s i => if (s = 1 ∨ s = 2) ∧ i = 0 then (18, 7) else (0, 0)⟩

example : Slots x0 U3 := by
  rintro k k' ⟨h1, h2⟩ ⟨h3, h4⟩ he h0
  interval_cases k <;> interval_cases k' <;> first | rfl | (exfalso; revert he h0; decide)

/-- The tag "required" is set from tetrahedron 3, that has no slot. -/
example : (match settag A3 V3 3 3 0 4 9 x0 with
    | .ok x => [x.cell 1 0, x.cell 2 0, x.cell 1 1]
    | _ => []) = [(22, 9), (22, 9), (0, 0)] := by decide

example : (match deltag A3 V3 3 3 0 2 x0 with
    | .ok x => [x.cell 1 0, x.cell 2 0]
    | _ => []) = [(16, 7), (16, 7)] := by decide

example : getTag A3 V3 3 3 0 x0 (0, 0) = .ok (18, 7) := rfl

example : srcbdy { m3 with bdy := fun k f => (k = 1 ∧ f = 2) ∨ (k = 2 ∧ f = 3) } 3 3 0 = some true ∧
    srcbdy m3 3 3 0 = some false := ⟨rfl, rfl⟩

/-- **C61.** When no tetrahedron around the edge knows it as a boundary edge,
`MMG3D_get_shellEdgeTag` may nevertheless change the given reference. -/
theorem C61_get_ref_lost :
    ∃ x, (∀ k i, ¬ Marked x k i) ∧ getTag A3 V3 3 3 0 x (2, 5) = .ok (2, 0) := by
  refine ⟨⟨fun k => if k = 1 then 1 else 0, fun _ _ => 0, fun _ _ => (0, 0)⟩, ?_, rfl⟩
  rintro k i ⟨_, h | h | h⟩ <;> simp [hasB] at h

/-- The edge gets `BDY + GEO + REQ` and reference 9; no tetrahedron has these data before. -/
example : (∀ k i, ¬ Already x0 22 9 k i) ∧
    (match updTag A3 V3 3 3 0 22 9 x0 with
      | .ok x => [x.cell 1 0, x.cell 2 0, x.cell 1 1]
      | _ => []) = [(22, 9), (22, 9), (0, 0)] := by
  refine ⟨?_, by decide⟩
  rintro k i ⟨_, _, h⟩
  simp only [x0] at h
  split_ifs at h <;> cases h

/-- **C61.** `MMG3D_update_shellEdgeTag` stops at the first tetrahedron that already has the data:
the edge keeps different tags and references in the tetrahedra behind. -/
theorem C61_update_stops :
    ∃ x x', Slots x U3 ∧ updTag A3 V3 3 1 0 22 9 x = .ok x' ∧
      InShell A3 V3 1 0 3 ∧ IsEdge (V3 3) 1 2 0 ∧ x.xt 3 ≠ 0 ∧
      x'.cell (x.xt 1) 0 = (22, 9) ∧ x'.cell (x.xt 3) 0 = (16, 1) := by
  refine ⟨⟨fun k => k, fun _ _ => 0, fun s _ => if s = 2 then (22, 9) else (16, 1)⟩, _, ?_, rfl,
    ?_, ?_, by decide, by decide, by decide⟩
  · intro k k' _ _ h _; exact h
  · exact .single ⟨3, ⟨by decide, by decide, by decide⟩, by decide, rfl⟩
  · exact ⟨by decide, by decide⟩

end Ex

end Mmg.Shell
