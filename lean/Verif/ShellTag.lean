/-
  Properties of the change of edge tags around an edge (C60) and of the search of edge data around
  it (C61). Specification: see ShellProps.
-/
import Mathlib.Data.Nat.Bitwise
import Verif.ShellProps
import Mathlib.Tactic.Ring

namespace Mmg.Shell

open Mmg.Split3 Mmg.Swap23

section
variable {σ : Type} {A : Nat → Nat} {V : Nat → List Nat} {used : Nat → Prop} {na nb : Nat}
  {body : σ → Nat → Nat → Nat → σ × Bool}

/-- What the two loops give. -/
inductive BothOK (A : Nat → Nat) (V : Nat → List Nat) (used : Nat → Prop)
    (body : σ → Nat → Nat → Nat → σ × Bool) (na nb : Nat) (d : Nat × Nat) (s : σ) : Done σ → Prop
  | closed (n : Nat) (hc : Chain A V used na nb d n true)
      (hst : ∀ i < n, stopN A V body na nb d s i = false) :
      BothOK A V used body na nb d s (.ok (runN A V body na nb d s n))
  | opened (n p : Nat) (ha : Alive A V na nb d n)
      (h0 : link A (seq A V na nb d n).1 (seq A V na nb d n).2 = 0)
      (hst : ∀ i < n, stopN A V body na nb d s i = false)
      (hb : Alive A V na nb (rev V na nb d) p)
      (h1 : link A (seq A V na nb (rev V na nb d) p).1 (seq A V na nb (rev V na nb d) p).2 = 0)
      (hst' : ∀ i < p, stopN A V body na nb (rev V na nb d) (runN A V body na nb d s n) i = false) :
      BothOK A V used body na nb d s
        (.ok (runN A V body na nb (rev V na nb d) (runN A V body na nb d s n) p))
  | early1 (n : Nat) (ha : Alive A V na nb d (n + 1))
      (hnn : ∀ i, 1 ≤ i → i ≤ n + 1 → (seq A V na nb d i).1 ≠ d.1)
      (hst : ∀ i < n, stopN A V body na nb d s i = false)
      (hs : stopN A V body na nb d s n = true) :
      BothOK A V used body na nb d s (.ok (runN A V body na nb d s (n + 1)))
  | early2 (n p : Nat) (ha : Alive A V na nb d n)
      (h0 : link A (seq A V na nb d n).1 (seq A V na nb d n).2 = 0)
      (hst : ∀ i < n, stopN A V body na nb d s i = false)
      (hb : Alive A V na nb (rev V na nb d) (p + 1))
      (hst' : ∀ i < p, stopN A V body na nb (rev V na nb d) (runN A V body na nb d s n) i = false)
      (hs : stopN A V body na nb (rev V na nb d) (runN A V body na nb d s n) p = true) :
      BothOK A V used body na nb d s
        (.ok (runN A V body na nb (rev V na nb d) (runN A V body na nb d s n) (p + 1)))

/-- All the faces of a complete turn lead to a neighbour. -/
theorem Chain.live {n : Nat} {d : Nat × Nat} (hc : Chain A V used na nb d n true) (i : Nat) :
    link A (seq A V na nb d i).1 (seq A V na nb d i).2 ≠ 0 := by
  have hcyc : ∀ q i, i ≤ n → link A (seq A V na nb d (q * (n + 1) + i)).1
      (seq A V na nb d (q * (n + 1) + i)).2 ≠ 0 := by
    intro q
    induction q with
    | zero =>
      intro i hi
      rw [Nat.zero_mul, Nat.zero_add]
      rcases Nat.lt_or_ge i n with h' | h'
      · exact hc.alive i h'
      · have : i = n := by omega
        subst this
        exact (hc.closed rfl).1
    | succ q ih =>
      intro i hi
      have := ih i hi
      rw [show (q + 1) * (n + 1) + i = (n + 1) + (q * (n + 1) + i) by ring, seq_add,
        (hc.closed rfl).2.1]
      exact this
  have := hcyc (i / (n + 1)) (i % (n + 1)) (by
    have := Nat.mod_lt i (show 0 < n + 1 by omega); omega)
  rwa [Nat.div_add_mod'] at this

theorem bothDirs_ok (hm : Mesh A V used) {ne : Nat} (hne : ∀ k, used k → k ≤ ne)
    {fuel start ia : Nat} (hf : ne ≤ fuel) (hs : used start) (hia : ia < 6) (s : σ) :
    BothOK A V used body (ends (V start) ia).1 (ends (V start) ia).2 (start, (ifar ia).1) s
      (bothDirs A V body fuel start ia s) := by
  obtain ⟨hd, hrev, hpiv, hpiv2, _⟩ := dart_start hm hs hia
  unfold bothDirs
  generalize (ends (V start) ia).1 = na at *
  generalize (ends (V start) ia).2 = nb at *
  simp only
  have hr := hd.rv.1
  have key := oneDir_spec (body := body) hm hd s fuel fuel 0 (by omega) (by intro i hi; omega)
    (by intro i h1 h2; omega) (by intro i hi; omega)
  have e0 : seq A V na nb (start, (ifar ia).1) 0 = (start, (ifar ia).1) := rfl
  have e1 : runN A V body na nb (start, (ifar ia).1) s 0 = s := rfl
  rw [e0, e1, hpiv] at key
  revert key
  generalize oneDir A V body start na nb fuel (link A start (ifar ia).1 / 4)
      ((V start).getD (ifar ia).2 0) s = R
  intro key
  match R, key with
  | .noFuel, ⟨ha, hn⟩ =>
    have := alive_bound hm hne hd ha hn
    omega
  | .early k s', ⟨n, ha, hnn, hst, hs', _, hs''⟩ =>
    subst hs''
    exact .early1 n ha hnn hst hs'
  | .fin adj s', ⟨n, ha, hnn, hst, hs', hcase⟩ =>
    subst hs'
    rcases hcase with ⟨rfl, h0⟩ | ⟨rfl, ha', hb⟩
    · have hpos := hm.adj.pos _ hs
      simp only
      rw [if_neg (show ¬ (0 = start) by omega)]
      have key := oneDir_spec (body := body) hm hr (runN A V body na nb (start, (ifar ia).1) s n)
        fuel fuel 0 (by omega) (by intro i hi; omega)
        (by intro i h1 h2; omega) (by intro i hi; omega)
      have e2 : seq A V na nb (rev V na nb (start, (ifar ia).1)) 0 = (start, (ifar ia).2) := hrev
      have e3 : runN A V body na nb (rev V na nb (start, (ifar ia).1))
        (runN A V body na nb (start, (ifar ia).1) s n) 0 =
          runN A V body na nb (start, (ifar ia).1) s n := rfl
      rw [e2, e3, hpiv2] at key
      have e4 : (rev V na nb (start, (ifar ia).1)).1 = start := rfl
      rw [e4] at key
      revert key
      generalize oneDir A V body start na nb fuel (link A start (ifar ia).2 / 4)
        ((V start).getD (ifar ia).1 0) (runN A V body na nb (start, (ifar ia).1) s n) = R2
      intro key
      match R2, key with
      | .noFuel, ⟨ha2, hn2⟩ =>
        have := alive_bound hm hne hr ha2 hn2
        omega
      | .early k s', ⟨p, ha2, _, hst2, hs2, _, hs''⟩ =>
        subst hs''
        exact .early2 n p ha h0 hst ha2 hst2 hs2
      | .fin adj s', ⟨p, ha2, hn2, hst2, hs2, hcase2⟩ =>
        subst hs2
        rcases hcase2 with ⟨_, h02⟩ | ⟨_, ha3, hb3⟩
        · exact .opened n p ha h0 hst ha2 h02 hst2
        · exfalso
          -- a closed turn in one direction excludes a boundary face in the other one
          have hc := chain_one hm hr ha3 hn2 hb3
          have hdn := seq_dart hm hd ha n le_rfl
          have hin : Relation.ReflTransGen (Nbr A V na nb) start
              (seq A V na nb (start, (ifar ia).1) n).1 := by
            have := (seq_path hm hd ha 0 n (by omega)).1
            rwa [Nat.zero_add] at this
          obtain ⟨j, hj, hje⟩ := (hc.reach hm (i := 0) (by omega) _).1 hin
          have hth := hdn.thru
          rw [← hje] at hth
          rw [← hje] at h0
          rcases hc.face hm hj hth with e | ⟨hh, _⟩ | ⟨i, hi, _, h2⟩
          · rw [e] at h0
            by_cases hjp : j < p
            · exact hc.alive j hjp h0
            · have : j = p := by omega
              subst this
              exact (hc.closed rfl).1 h0
          · cases hh
          · have := hm.adj.pos _ (seq_dart hm hc.dart hc.alive i hi).used
            omega
    · simp only [if_true]
      exact .closed n (chain_one hm hd ha' hnn hb) hst

end

/-! ### Change of one cell per tetrahedron -/

section
variable {A : Nat → Nat} {V : Nat → List Nat} {used : Nat → Prop} {na nb : Nat}
  {g : (Nat → Nat) → Nat → Nat × Int → Nat × Int}

/-- Different tetrahedra have different slots. -/
def Slots (x : X) (used : Nat → Prop) : Prop :=
  ∀ k k', used k → used k' → x.xt k = x.xt k' → x.xt k ≠ 0 → k = k'

/-- The cells of the tetrahedra in `S` have been changed by `g`, the others not. -/
structure Upd (V : Nat → List Nat) (na nb : Nat) (g : (Nat → Nat) → Nat → Nat × Int → Nat × Int)
    (S : Nat → Prop) (x x' : X) : Prop where
  xt : x'.xt = x.xt
  ftag : x'.ftag = x.ftag
  hit : ∀ k, S k → x.xt k ≠ 0 → x'.cell (x.xt k) (edgeOf V na nb k) =
    g (x.ftag (x.xt k)) (edgeOf V na nb k) (x.cell (x.xt k) (edgeOf V na nb k))
  other : ∀ s j, (∀ k, S k → x.xt k = s → s ≠ 0 → j ≠ edgeOf V na nb k) →
    x'.cell s j = x.cell s j

theorem Upd.none (x : X) : Upd V na nb g (fun _ => False) x x :=
  ⟨rfl, rfl, by simp, fun _ _ _ => rfl⟩

theorem Upd.step {S : Nat → Prop} {x x' : X} (hx : Slots x used) (h : Upd V na nb g S x x')
    (hS : ∀ k, S k → used k) {k : Nat} (hk : used k) (hkS : ¬ S k) (f : Nat) :
    Upd V na nb g (fun q => S q ∨ q = k) x (cellBody g x' k (edgeOf V na nb k) f).1 := by
  unfold cellBody
  rw [h.xt, h.ftag]
  by_cases h0 : x.xt k = 0
  · simp only [h0, if_true]
    refine ⟨h.xt, h.ftag, ?_, ?_⟩
    · rintro q (hq | rfl) hq0
      · exact h.hit q hq hq0
      · exact absurd h0 hq0
    · intro s j hsj
      exact h.other s j fun q hq => hsj q (.inl hq)
  · simp only [h0, if_false]
    refine ⟨rfl, rfl, ?_, ?_⟩
    · rintro q (hq | rfl) hq0
      · have hne : ¬ (x.xt q = x.xt k ∧ edgeOf V na nb q = edgeOf V na nb k) := by
          rintro ⟨e, _⟩
          have := hx q k (hS q hq) hk e hq0
          subst this
          exact hkS hq
        simp only [hne, if_false]
        exact h.hit q hq hq0
      · simp only [and_self, if_true]
        rw [h.other]
        intro q' hq' e _ _
        have := hx q' q (hS q' hq') hk e (by rw [e]; exact hq0)
        subst this
        exact hkS hq'
    · intro s j hsj
      have hne : ¬ (s = x.xt k ∧ j = edgeOf V na nb k) := by
        rintro ⟨rfl, rfl⟩
        exact hsj k (.inr rfl) rfl h0 rfl
      simp only [hne, if_false]
      exact h.other s j fun q hq => hsj q (.inl hq)

theorem Upd.run {x x0 : X} (hx : Slots x used) (d : Nat × Nat) {S : Nat → Prop}
    (h0 : Upd V na nb g S x x0) (hS : ∀ k, S k → used k) :
    ∀ n, (∀ i, 1 ≤ i → i ≤ n → used (seq A V na nb d i).1 ∧ ¬ S (seq A V na nb d i).1) →
      (∀ i j, 1 ≤ i → 1 ≤ j → i ≤ n → j ≤ n →
        (seq A V na nb d i).1 = (seq A V na nb d j).1 → i = j) →
      Upd V na nb g (fun q => S q ∨ ∃ i, 1 ≤ i ∧ i ≤ n ∧ q = (seq A V na nb d i).1) x
        (runN A V (cellBody g) na nb d x0 n) := by
  intro n
  induction n with
  | zero =>
    intro _ _
    have : (fun q => S q ∨ ∃ i, 1 ≤ i ∧ i ≤ 0 ∧ q = (seq A V na nb d i).1) = S := by
      funext q
      apply propext
      constructor
      · rintro (h | ⟨i, h1, h2, _⟩)
        · exact h
        · omega
      · exact .inl
    rw [this]
    exact h0
  | succ n ih =>
    intro hu hinj
    have h1 := ih (fun i a b => hu i a (by omega))
      (fun i j a b c e => hinj i j a b (by omega) (by omega))
    have h2 := h1.step hx (by
      rintro k (hk | ⟨i, a, b, rfl⟩)
      · exact hS k hk
      · exact (hu i a (by omega)).1) (hu (n + 1) (by omega) le_rfl).1 (by
      rintro (hk | ⟨i, a, b, e⟩)
      · exact (hu (n + 1) (by omega) le_rfl).2 hk
      · have := hinj (n + 1) i (by omega) a le_rfl (by omega) e
        omega) (seq A V na nb d (n + 1)).2
    have : (fun q => (S q ∨ ∃ i, 1 ≤ i ∧ i ≤ n ∧ q = (seq A V na nb d i).1) ∨
        q = (seq A V na nb d (n + 1)).1) =
        (fun q => S q ∨ ∃ i, 1 ≤ i ∧ i ≤ n + 1 ∧ q = (seq A V na nb d i).1) := by
      funext q
      apply propext
      constructor
      · rintro ((h | ⟨i, a, b, e⟩) | e)
        · exact .inl h
        · exact .inr ⟨i, a, by omega, e⟩
        · exact .inr ⟨n + 1, by omega, le_rfl, e⟩
      · rintro (h | ⟨i, a, b, e⟩)
        · exact .inl (.inl h)
        · rcases Nat.le_succ_iff.1 b with b | rfl
          · exact .inl (.inr ⟨i, a, b, e⟩)
          · exact .inr e
    rw [this] at h2
    exact h2

/-- The tetrahedra seen by two paths. -/
theorem two_paths (hm : Mesh A V used) {d : Nat × Nat} (h : Dart V used na nb d) {n p : Nat}
    (ha : Alive A V na nb d n)
    (h0 : link A (seq A V na nb d n).1 (seq A V na nb d n).2 = 0)
    (hb : Alive A V na nb (rev V na nb d) p)
    (h1 : link A (seq A V na nb (rev V na nb d) p).1 (seq A V na nb (rev V na nb d) p).2 = 0) :
    (∀ k, Relation.ReflTransGen (Nbr A V na nb) d.1 k ↔
      (k = d.1 ∨ ∃ i, 1 ≤ i ∧ i ≤ n ∧ k = (seq A V na nb d i).1) ∨
        ∃ i, 1 ≤ i ∧ i ≤ p ∧ k = (seq A V na nb (rev V na nb d) i).1) ∧
    (∀ i j, i ≤ n → j ≤ n → (seq A V na nb d i).1 = (seq A V na nb d j).1 → i = j) ∧
    (∀ i j, i ≤ p → j ≤ p → (seq A V na nb (rev V na nb d) i).1 =
      (seq A V na nb (rev V na nb d) j).1 → i = j) ∧
    (∀ i j, i ≤ n → 1 ≤ j → j ≤ p →
      (seq A V na nb (rev V na nb d) j).1 ≠ (seq A V na nb d i).1) := by
  obtain ⟨hc, g1, g2⟩ := chain_two hm h ha h0 hb h1
  have hinj := hc.inj hm
  have a1 : ∀ j ≤ p, (seq A V na nb (rev V na nb (seq A V na nb (rev V na nb d) p)) (p - j)).1 =
      (seq A V na nb (rev V na nb d) j).1 := by
    intro j hj
    rw [g1 (p - j) (by omega), show p - (p - j) = j by omega]
    rfl
  have a2 : ∀ j, (seq A V na nb (rev V na nb (seq A V na nb (rev V na nb d) p)) (p + j)).1 =
      (seq A V na nb d j).1 := fun j => by rw [g2]
  refine ⟨?_, ?_, ?_, ?_⟩
  · intro k
    have := hc.reach hm (i := p) (by omega) k
    have e := a2 0
    rw [Nat.add_zero] at e
    rw [e] at this
    have e' : (seq A V na nb d 0).1 = d.1 := rfl
    rw [e'] at this
    rw [this]
    constructor
    · rintro ⟨j, hj, rfl⟩
      rcases Nat.lt_trichotomy j p with hlt | rfl | hlt
      · right
        refine ⟨p - j, by omega, by omega, ?_⟩
        rw [← a1 (p - j) (by omega), show p - (p - j) = j by omega]
      · left; left; exact e
      · left; right
        refine ⟨j - p, by omega, by omega, ?_⟩
        rw [← a2, show p + (j - p) = j by omega]
    · rintro ((rfl | ⟨i, _, hi, rfl⟩) | ⟨i, _, hi, rfl⟩)
      · exact ⟨p, by omega, e⟩
      · exact ⟨p + i, by omega, a2 i⟩
      · exact ⟨p - i, by omega, a1 i hi⟩
  · intro i j hi hj he
    rw [← a2 i, ← a2 j] at he
    have := hinj _ _ (by omega) (by omega) he
    omega
  · intro i j hi hj he
    rw [← a1 i hi, ← a1 j hj] at he
    have := hinj _ _ (by omega) (by omega) he
    omega
  · intro i j hi h1j hj he
    rw [← a1 j hj, ← a2 i] at he
    have := hinj _ _ (by omega) (by omega) he
    omega

theorem both_cell (hm : Mesh A V used) {ne : Nat} (hne : ∀ k, used k → k ≤ ne)
    {fuel start ia : Nat} (hf : ne ≤ fuel) (hs : used start) (hia : ia < 6) {x : X}
    (hx : Slots x used) :
    ∃ x', bothDirs A V (cellBody g) fuel start ia (cellBody g x start ia 0).1 = .ok x' ∧
      Upd V (ends (V start) ia).1 (ends (V start) ia).2 g (InShell A V start ia) x x' := by
  have hok := bothDirs_ok (body := cellBody g) hm hne hf hs hia (cellBody g x start ia 0).1
  obtain ⟨hd, _, _, _, hed⟩ := dart_start hm hs hia
  unfold InShell
  revert hok hd hed
  generalize (ends (V start) ia).1 = na
  generalize (ends (V start) ia).2 = nb
  intro hok hd hed
  have h0 : Upd V na nb g (fun q => q = start) x (cellBody g x start ia 0).1 := by
    have := (Upd.none (V := V) (na := na) (nb := nb) (g := g) x).step hx (by simp) hs (by simp) 0
    rw [hed] at this
    simpa using this
  have hS : ∀ k, k = start → used k := by rintro k rfl; exact hs
  have hns : ∀ (y : X) k i f, (cellBody g y k i f).2 = false := fun _ _ _ _ => rfl
  revert hok
  generalize bothDirs A V (cellBody g) fuel start ia (cellBody g x start ia 0).1 = R
  intro hok
  cases hok with
  | closed n hc hst =>
    refine ⟨_, rfl, ?_⟩
    have hinj := hc.inj hm
    have := h0.run (A := A) hx (start, (ifar ia).1) hS n (by
      intro i h1 h2
      refine ⟨(seq_dart hm hc.dart hc.alive i h2).used, fun e => ?_⟩
      have := hinj i 0 h2 (by omega) e
      omega) (fun i j _ _ => hinj i j)
    have e : (fun q => q = start ∨ ∃ i, 1 ≤ i ∧ i ≤ n ∧
        q = (seq A V na nb (start, (ifar ia).1) i).1) =
        Relation.ReflTransGen (Nbr A V na nb) start := by
      funext k
      apply propext
      have := hc.reach hm (i := 0) (by omega) k
      have e' : (seq A V na nb (start, (ifar ia).1) 0).1 = start := rfl
      rw [e'] at this
      rw [this]
      constructor
      · rintro (rfl | ⟨i, _, hi, rfl⟩)
        · exact ⟨0, by omega, rfl⟩
        · exact ⟨i, hi, rfl⟩
      · rintro ⟨j, hj, rfl⟩
        match j with
        | 0 => exact .inl rfl
        | j + 1 => exact .inr ⟨j + 1, by omega, hj, rfl⟩
    rw [e] at this
    exact this
  | opened n p ha hz hst hb hz' hst' =>
    refine ⟨_, rfl, ?_⟩
    obtain ⟨hr, i1, i2, i3⟩ := two_paths hm hd ha hz hb hz'
    have h1 := h0.run (A := A) hx (start, (ifar ia).1) hS n (by
      intro i a b
      refine ⟨(seq_dart hm hd ha i b).used, fun e => ?_⟩
      have := i1 i 0 b (by omega) e
      omega) (fun i j _ _ => i1 i j)
    have h2 := h1.run (A := A) hx (rev V na nb (start, (ifar ia).1)) (by
      rintro k (rfl | ⟨i, _, b, rfl⟩)
      · exact hs
      · exact (seq_dart hm hd ha i b).used) p (by
      intro i a b
      refine ⟨(seq_dart hm hd.rv.1 hb i b).used, ?_⟩
      rintro (e | ⟨j, _, c, e⟩)
      · exact i3 0 i (by omega) a b e
      · exact i3 j i c a b e) (fun i j _ _ => i2 i j)
    have e : (fun q => (q = start ∨ ∃ i, 1 ≤ i ∧ i ≤ n ∧
        q = (seq A V na nb (start, (ifar ia).1) i).1) ∨ ∃ i, 1 ≤ i ∧ i ≤ p ∧
        q = (seq A V na nb (rev V na nb (start, (ifar ia).1)) i).1) =
        Relation.ReflTransGen (Nbr A V na nb) start := by
      funext k
      exact propext (hr k).symm
    rw [e] at h2
    exact h2
  | early1 n ha _ hst hs' => exact absurd hs' (by simp [stopN, hns])
  | early2 n p ha hz hst hb hst' hs' => exact absurd hs' (by simp [stopN, hns])

/-- The tetrahedra around the edge have it, as the edge found by the search. -/
theorem shell_edge (hm : Mesh A V used) {start ia : Nat} (hs : used start) (hia : ia < 6) {k : Nat}
    (hk : InShell A V start ia k) : used k ∧
    Has (V k) (ends (V start) ia).1 (ends (V start) ia).2 ∧
    (∀ i, IsEdge (V k) (ends (V start) ia).1 (ends (V start) ia).2 i ↔
      edgeOf V (ends (V start) ia).1 (ends (V start) ia).2 k = i) := by
  obtain ⟨hd, _⟩ := dart_start hm hs hia
  unfold InShell at hk
  generalize (ends (V start) ia).1 = na at *
  generalize (ends (V start) ia).2 = nb at *
  have key : used k ∧ Has (V k) na nb := by
    induction hk with
    | refl => exact ⟨hd.used, hd.has⟩
    | tail _ h1 ih =>
      obtain ⟨f, hf, hl, rfl⟩ := h1
      have hd' : Dart V used na nb (_, f) := ⟨ih.1, ih.2, hf⟩
      have := hd'.cross hm hl
      exact ⟨this.1, this.2.1⟩
  refine ⟨key.1, key.2, fun i => ?_⟩
  obtain ⟨j, hj, h6, he, _⟩ := findEdge_spec key.2
  have e : edgeOf V na nb k = j := by simp [edgeOf, hj]
  rw [e]
  constructor
  · rintro ⟨hi6, hi⟩
    -- the number of the edge is unique
    have hl := key.2.len
    have hnd := key.2.nd
    have := (start_edge hl hnd h6).2
    have hi' := (start_edge hl hnd hi6).2
    have sym : ∀ a b, findEdge (V k) a b = findEdge (V k) b a := by
      intro a b
      unfold findEdge
      congr 1
      funext q
      rw [Bool.or_comm]
    have t1 : findEdge (V k) na nb = some i := by
      rcases hi with hi | hi <;> rw [hi] at hi'
      · exact hi'
      · rw [sym]; exact hi'
    rw [hj] at t1
    exact Option.some.inj t1
  · rintro rfl
    exact ⟨h6, he⟩

/-! ## C60: edge tags around an edge -/

/-- Specification of a change around an edge: in each tetrahedron of the shell that has a slot, the
data of the edge is changed by `g`; nothing else changes. -/
def ShellChange (A : Nat → Nat) (V : Nat → List Nat) (start ia : Nat)
    (g : (Nat → Nat) → Nat → Nat × Int → Nat × Int) (x x' : X) : Prop :=
  x'.xt = x.xt ∧ x'.ftag = x.ftag ∧
  (∀ k i, InShell A V start ia k →
    IsEdge (V k) (ends (V start) ia).1 (ends (V start) ia).2 i → x.xt k ≠ 0 →
    x'.cell (x.xt k) i = g (x.ftag (x.xt k)) i (x.cell (x.xt k) i)) ∧
  (∀ s i, (∀ k, InShell A V start ia k → x.xt k = s → s ≠ 0 →
    ¬ IsEdge (V k) (ends (V start) ia).1 (ends (V start) ia).2 i) → x'.cell s i = x.cell s i)

theorem Upd.change (hm : Mesh A V used) {start ia : Nat} (hs : used start) (hia : ia < 6) {x x' : X}
    (h : Upd V (ends (V start) ia).1 (ends (V start) ia).2 g (InShell A V start ia) x x') :
    ShellChange A V start ia g x x' := by
  refine ⟨h.xt, h.ftag, ?_, ?_⟩
  · intro k i hk hi h0
    have := ((shell_edge hm hs hia hk).2.2 i).1 hi
    subst this
    exact h.hit k hk h0
  · intro s i hsi
    apply h.other
    intro k hk e h0 he
    exact hsi k hk e h0 (((shell_edge hm hs hia hk).2.2 i).2 he.symm)

/-- **C60.** `MMG5_settag` always ends and gives to the edge, in all the tetrahedra around it that
have boundary data and nowhere else, the union of its former tags and of the given ones (without
"required for the surface only" as soon as one of both is really required), and the largest of both
references. -/
theorem C60_settag (hm : Mesh A V used) {ne : Nat} (hne : ∀ k, used k → k ≤ ne)
    {fuel start ia : Nat} (hf : ne ≤ fuel) (hs : used start) (hia : ia < 6) {x : X}
    (hx : Slots x used) (tag : Nat) (edg : Int) :
    ∃ x', settag A V fuel start ia tag edg x = .ok x' ∧
      ShellChange A V start ia (fun _ _ c => (joinTag c.1 tag, max c.2 edg)) x x' := by
  obtain ⟨x', h1, h2⟩ := both_cell (g := setG tag edg) hm hne hf hs hia hx
  exact ⟨x', h1, h2.change hm hs hia⟩

/-- **C60.** `MMG5_deltag` always ends and removes the given tags of the edge, in all the tetrahedra
around it with a boundary face through the edge, and nowhere else. -/
theorem C60_deltag (hm : Mesh A V used) {ne : Nat} (hne : ∀ k, used k → k ≤ ne)
    {fuel start ia : Nat} (hf : ne ≤ fuel) (hs : used start) (hia : ia < 6) {x : X}
    (hx : Slots x used) (tag : Nat) :
    ∃ x', deltag A V fuel start ia tag x = .ok x' ∧
      ShellChange A V start ia (fun ft i c =>
        if hasB (ft (ifar i).1) BDY || hasB (ft (ifar i).2) BDY then (clr c.1 tag, c.2) else c)
        x x' := by
  obtain ⟨x', h1, h2⟩ := both_cell (g := delG tag) hm hne hf hs hia hx
  exact ⟨x', h1, h2.change hm hs hia⟩

/-- The tetrahedra around the edge agree on its tag and reference. -/
def Agree (A : Nat → Nat) (V : Nat → List Nat) (start ia : Nat) (x : X) : Prop :=
  ∃ c, ∀ k i, InShell A V start ia k →
    IsEdge (V k) (ends (V start) ia).1 (ends (V start) ia).2 i → x.xt k ≠ 0 →
    x.cell (x.xt k) i = c

theorem hasB_pow (t n : Nat) : hasB t (2 ^ n) = t.testBit n := by
  unfold hasB
  rw [Nat.and_two_pow]
  cases t.testBit n <;> simp

/-- The bits of a union of tags. -/
theorem joinTag_bits (old tag b : Nat) (hb : b < 16) : (joinTag old tag).testBit b =
    if b = 6 then (old.testBit 6 || tag.testBit 6) &&
      !((old.testBit 2 && !old.testBit 6) || (tag.testBit 2 && !tag.testBit 6))
    else (old.testBit b || tag.testBit b) := by
  have r : ∀ t, really t = (t.testBit 2 && !t.testBit 6) := fun t => by
    unfold really
    rw [show REQ = 2 ^ 2 from rfl, show NOSURF = 2 ^ 6 from rfl, hasB_pow, hasB_pow]
  unfold joinTag
  rw [r, r]
  split_ifs with h1 h2 h2
  · subst h2
    rw [h1]
    simp only [clr, NOSURF, Nat.testBit_and]
    simp only [show (65535 - 64).testBit 6 = false by decide, Bool.and_false, Bool.not_true]
  · simp only [clr, NOSURF, Nat.testBit_and, Nat.testBit_or]
    have : (65535 - 64).testBit b = true := by
      interval_cases b <;> first | exact absurd rfl h2 | decide
    rw [this, Bool.and_true]
  · subst h2
    rw [Bool.not_eq_true] at h1
    rw [h1, Nat.testBit_or]
    simp
  · rw [Nat.testBit_or]

/-- **C60.** When the tetrahedra around the edge agree on its data, they still do after
`MMG5_settag`; in any case the bits of the tag are the union of the former ones and of the
given ones, but for the mark "for the surface only" (bit 6), dropped as soon as one of both is
required (bit 2) without this mark; the reference is the larger one. -/
theorem C60_settag_agree (hm : Mesh A V used) {ne : Nat} (hne : ∀ k, used k → k ≤ ne)
    {fuel start ia : Nat} (hf : ne ≤ fuel) (hs : used start) (hia : ia < 6) {x x' : X}
    (hx : Slots x used) {tag : Nat} {edg : Int}
    (h : settag A V fuel start ia tag edg x = .ok x') :
    (Agree A V start ia x → Agree A V start ia x') ∧
    (∀ k i, InShell A V start ia k →
      IsEdge (V k) (ends (V start) ia).1 (ends (V start) ia).2 i → x.xt k ≠ 0 →
      (x'.cell (x.xt k) i).2 = max (x.cell (x.xt k) i).2 edg ∧
      ∀ b, b < 16 → (x'.cell (x.xt k) i).1.testBit b =
        if b = 6 then ((x.cell (x.xt k) i).1.testBit 6 || tag.testBit 6) &&
          !(((x.cell (x.xt k) i).1.testBit 2 && !(x.cell (x.xt k) i).1.testBit 6) ||
            (tag.testBit 2 && !tag.testBit 6))
        else ((x.cell (x.xt k) i).1.testBit b || tag.testBit b)) := by
  obtain ⟨y, h1, h2, _, h3, _⟩ := C60_settag hm hne hf hs hia hx tag edg
  rw [h] at h1
  injection h1 with h1
  subst h1
  constructor
  · rintro ⟨c, hc⟩
    refine ⟨(joinTag c.1 tag, max c.2 edg), fun k i hk hi h0 => ?_⟩
    rw [h2] at h0 ⊢
    rw [h3 k i hk hi h0, hc k i hk hi h0]
  · intro k i hk hi h0
    rw [h3 k i hk hi h0]
    exact ⟨rfl, fun b hb => joinTag_bits _ _ b hb⟩

end

end Mmg.Shell
