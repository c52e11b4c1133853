/-
  Lemmas on the split of an edge (`Spl1bModel`): vertices and links.
-/
import Verif.Spl1bModel
import Verif.Reglue
import Verif.Swap23Lemmas
import Verif.DeloneModel

namespace Mmg.Spl1b

open Mmg.Split3 Mmg.Swap23 Mmg.Shell

/-- The list goes round the edge `na nb`: each tetrahedron is linked with the next one by a face through the edge; at the
two ends there is no neighbour (`op`), or the last one is linked with the first one. -/
structure Round (A : Nat → Nat) (V : Nat → List Nat) (used : Nat → Prop) (na nb : Nat) (l : Nat → Nat) (n : Nat)
    (op : Bool) : Prop where
  pos : 1 ≤ n
  used : ∀ k < n, used (l k / 6)
  edge : ∀ k < n, IsEdge (V (l k / 6)) na nb (l k % 6)
  inj : ∀ k < n, ∀ m < n, l k / 6 = l m / 6 → k = m
  faces : ∃ fwd bwd : Nat → Nat,
    (∀ k < n, Thru (V (l k / 6)) na nb (fwd k) ∧ Thru (V (l k / 6)) na nb (bwd k) ∧ fwd k ≠ bwd k) ∧
    (∀ k, k + 1 < n → link A (l k / 6) (fwd k) = 4 * (l (k + 1) / 6) + bwd (k + 1)) ∧
    (op = true → link A (l (n - 1) / 6) (fwd (n - 1)) = 0 ∧ link A (l 0 / 6) (bwd 0) = 0) ∧
    (op = false → link A (l (n - 1) / 6) (fwd (n - 1)) = 4 * (l 0 / 6) + bwd 0)

/-- What is assumed of the mesh and of the arguments. -/
structure Pre (I : In) (A : Nat → Nat) (V : Nat → List Nat) (used : Nat → Prop) (na nb : Nat) : Prop where
  mesh : Mesh A V used
  twins : Colver.NoTwins A V used
  round : Round A V used na nb I.l I.n I.op
  fresh : Delone.Fresh I.new used I.n
  ip : ∀ k, used k → I.ip ∉ V k

section

variable {I : In} {A : Nat → Nat} {V : Nat → List Nat} {used : Nat → Prop} {na nb : Nat}

theorem perm_t {e : Nat} (h : e < 6) : Perm4 (fun i => (cfg1 (2 ^ e)).L i) := by
  interval_cases e <;> exact ⟨by decide, by decide, by decide⟩

theorem t_iare {e : Nat} (h : e < 6) :
    (cfg1 (2 ^ e)).L 0 = (iare.getD e (0, 0)).1 ∧ (cfg1 (2 ^ e)).L 1 = (iare.getD e (0, 0)).2 ∨
    (cfg1 (2 ^ e)).L 0 = (iare.getD e (0, 0)).2 ∧ (cfg1 (2 ^ e)).L 1 = (iare.getD e (0, 0)).1 := by
  interval_cases e <;> decide

theorem Perm4.cases {t : Nat → Nat} (h : Perm4 t) {f : Nat} (hf : f < 4) :
    f = t 0 ∨ f = t 1 ∨ f = t 2 ∨ f = t 3 := by
  have a0 := h.lt 0 (by decide)
  have a1 := h.lt 1 (by decide)
  have a2 := h.lt 2 (by decide)
  have a3 := h.lt 3 (by decide)
  have b01 : t 0 ≠ t 1 := fun e => absurd (h.inj 0 (by decide) 1 (by decide) e) (by decide)
  have b02 : t 0 ≠ t 2 := fun e => absurd (h.inj 0 (by decide) 2 (by decide) e) (by decide)
  have b03 : t 0 ≠ t 3 := fun e => absurd (h.inj 0 (by decide) 3 (by decide) e) (by decide)
  have b12 : t 1 ≠ t 2 := fun e => absurd (h.inj 1 (by decide) 2 (by decide) e) (by decide)
  have b13 : t 1 ≠ t 3 := fun e => absurd (h.inj 1 (by decide) 3 (by decide) e) (by decide)
  have b23 : t 2 ≠ t 3 := fun e => absurd (h.inj 2 (by decide) 3 (by decide) e) (by decide)
  omega

/-- Facts on one tetrahedron of the shell. -/
structure Tet (I : In) (A : Nat → Nat) (V : Nat → List Nat) (used : Nat → Prop) (na nb k : Nat) : Prop where
  us : used (I.iel k)
  len : (V (I.iel k)).length = 4
  nd : (V (I.iel k)).Nodup
  perm : Perm4 (I.t k)
  ends : (V (I.iel k)).getD (I.t k 0) 0 = na ∧ (V (I.iel k)).getD (I.t k 1) 0 = nb ∨
    (V (I.iel k)).getD (I.t k 0) 0 = nb ∧ (V (I.iel k)).getD (I.t k 1) 0 = na
  thru : ∀ f < 4, Thru (V (I.iel k)) na nb f ↔ f = I.t k 2 ∨ f = I.t k 3

theorem getD_inj {v : List Nat} (h : v.length = 4) (hn : v.Nodup) {i j : Nat} (hi : i < 4) (hj : j < 4)
    (he : v.getD i 0 = v.getD j 0) : i = j := by
  rw [List.getD_eq_getElem _ _ (by omega), List.getD_eq_getElem _ _ (by omega)] at he
  exact (List.Nodup.getElem_inj_iff hn).1 he

theorem Pre.tet (H : Pre I A V used na nb) {k : Nat} (hk : k < I.n) : Tet I A V used na nb k := by
  have hu := H.round.used k hk
  have hl := H.mesh.len _ hu
  have hn := H.mesh.nd _ hu
  obtain ⟨h6, he⟩ := H.round.edge k hk
  have hp := perm_t h6
  have hp' : Perm4 (I.t k) := hp
  have hends : (V (I.iel k)).getD (I.t k 0) 0 = na ∧ (V (I.iel k)).getD (I.t k 1) 0 = nb ∨
      (V (I.iel k)).getD (I.t k 0) 0 = nb ∧ (V (I.iel k)).getD (I.t k 1) 0 = na := by
    simp only [Shell.ends, Prod.mk.injEq] at he
    unfold In.t In.iel
    rcases t_iare h6 with ⟨e0, e1⟩ | ⟨e0, e1⟩ <;> rw [e0, e1]
    · exact he
    · exact he.symm.imp And.symm And.symm
  refine ⟨hu, hl, hn, hp', hends, ?_⟩
  intro f hf
  have key : ∀ i < 4, ∀ j < 4, (V (I.iel k)).getD i 0 = (V (I.iel k)).getD j 0 → i = j :=
    fun i hi j hj => getD_inj hl hn hi hj
  have a0 := hp'.lt 0 (by decide)
  have a1 := hp'.lt 1 (by decide)
  constructor
  · rintro ⟨_, f1, f2⟩
    rcases Perm4.cases hp' hf with e | e | e | e
    · subst e; rcases hends with h | h
      · exact absurd h.1 f1
      · exact absurd h.1 f2
    · subst e; rcases hends with h | h
      · exact absurd h.2 f2
      · exact absurd h.2 f1
    · exact .inl e
    · exact .inr e
  · intro h
    have n0 : f ≠ I.t k 0 := by
      rcases h with rfl | rfl <;> intro e <;> have := hp'.inj _ (by decide) _ (by decide) e <;> omega
    have n1 : f ≠ I.t k 1 := by
      rcases h with rfl | rfl <;> intro e <;> have := hp'.inj _ (by decide) _ (by decide) e <;> omega
    have d0 := fun e => n0 (key f hf _ a0 e)
    have d1 := fun e => n1 (key f hf _ a1 e)
    rcases hends with ⟨e0, e1⟩ | ⟨e0, e1⟩ <;> rw [e0] at d0 <;> rw [e1] at d1
    · exact ⟨hf, d0, d1⟩
    · exact ⟨hf, d1, d0⟩

/-- The edge of the first tetrahedron starts at one end. -/
theorem Pre.nump (H : Pre I A V used na nb) : I.nump V = na ∨ I.nump V = nb := by
  obtain ⟨h6, he⟩ := H.round.edge 0 H.round.pos
  simp only [Shell.ends, Prod.mk.injEq] at he
  unfold In.nump In.iel
  exact he.imp And.left And.left

theorem Pre.ne (H : Pre I A V used na nb) : na ≠ nb := by
  have T := H.tet H.round.pos
  have a0 := T.perm.lt 0 (by decide)
  have a1 := T.perm.lt 1 (by decide)
  intro e
  have := T.ends
  rw [e] at this
  have h : (V (I.iel 0)).getD (I.t 0 0) 0 = (V (I.iel 0)).getD (I.t 0 1) 0 := by
    rcases this with h | h <;> rw [h.1, h.2]
  exact absurd (T.perm.inj 0 (by decide) 1 (by decide) (getD_inj T.len T.nd a0 a1 h)) (by decide)

/-- Same sign: the kept parts are at the same end. -/
theorem Pre.sg_eq (H : Pre I A V used na nb) {k m : Nat} (hk : k < I.n) (hm : m < I.n) (h : I.sg V k = I.sg V m) :
    (V (I.iel k)).getD (I.t k 0) 0 = (V (I.iel m)).getD (I.t m 0) 0 ∧
    (V (I.iel k)).getD (I.t k 1) 0 = (V (I.iel m)).getD (I.t m 1) 0 := by
  have hne := H.ne
  unfold In.sg at h
  rcases (H.tet hk).ends with e | e <;> rcases (H.tet hm).ends with e' | e' <;> rw [e.1, e'.1] at h <;>
    rw [e.1, e'.1, e.2, e'.2] <;> rcases H.nump with q | q <;> rw [q] at h <;> simp_all

theorem Pre.sg_ne (H : Pre I A V used na nb) {k m : Nat} (hk : k < I.n) (hm : m < I.n) (h : I.sg V k ≠ I.sg V m) :
    (V (I.iel k)).getD (I.t k 0) 0 = (V (I.iel m)).getD (I.t m 1) 0 ∧
    (V (I.iel k)).getD (I.t k 1) 0 = (V (I.iel m)).getD (I.t m 0) 0 := by
  unfold In.sg at h
  rcases (H.tet hk).ends with e | e <;> rcases (H.tet hm).ends with e' | e' <;> rw [e.1, e'.1] at h <;>
    rw [e.1, e'.1, e.2, e'.2] <;> simp_all

theorem Pre.iel_pos (H : Pre I A V used na nb) {k : Nat} (hk : k < I.n) : 1 ≤ I.iel k :=
  H.mesh.adj.pos _ (H.round.used k hk)

theorem Pre.iel_new (H : Pre I A V used na nb) {k m : Nat} (hk : k < I.n) (hm : m < I.n) : I.iel k ≠ I.new m :=
  fun e => H.fresh.free m hm (e ▸ H.round.used k hk)

/-- The neighbour by a face that does not contain the edge is not in the shell. -/
theorem Pre.outside (H : Pre I A V used na nb) {k f : Nat} (hk : k < I.n) (hf : f = I.t k 0 ∨ f = I.t k 1)
    (h0 : link A (I.iel k) f ≠ 0) {m : Nat} (hm : m < I.n) : link A (I.iel k) f / 4 ≠ I.iel m := by
  intro e
  have T := H.tet hk
  have M := H.tet hm
  have f4 : f < 4 := by rcases hf with rfl | rfl <;> exact T.perm.lt _ (by decide)
  obtain ⟨hu, _, _, hface⟩ := H.mesh.adj.ok _ T.us _ f4 h0
  have hl' := H.mesh.len _ hu
  have h4 : link A (I.iel k) f % 4 < 4 := Nat.mod_lt _ (by decide)
  have hmem : (V (I.iel k)).getD f 0 ∈ V (I.iel m) := by
    have h : (V (I.iel k)).getD f 0 = na ∨ (V (I.iel k)).getD f 0 = nb := by
      rcases hf with rfl | rfl <;> rcases T.ends with h | h <;> simp only [h, true_or, or_true]
    have hmm : ∀ i, i < 4 → (V (I.iel m)).getD i 0 ∈ V (I.iel m) := fun i hi => by
      rw [List.getD_eq_getElem _ _ (by rw [M.len]; exact hi)]; exact List.getElem_mem _
    have m0 := hmm _ (M.perm.lt 0 (by decide))
    have m1 := hmm _ (M.perm.lt 1 (by decide))
    rcases h with h | h <;> rw [h] <;> rcases M.ends with h' | h' <;> rw [h'.1] at m0 <;> rw [h'.2] at m1 <;> assumption
  rw [← e] at hmem
  have h2 : (V (I.iel k)).getD f 0 ∈ faceTri 0 (V (link A (I.iel k) f / 4)) (link A (I.iel k) f % 4) +
      {(V (link A (I.iel k) f / 4)).getD (link A (I.iel k) f % 4) 0} := by
    rw [faceTri_add hl' h4]; exact hmem
  rw [Multiset.mem_add, Multiset.mem_singleton] at h2
  rcases h2 with h2 | h2
  · rw [hface, mem_faceTri f4] at h2
    obtain ⟨i, hi, hne, he⟩ := h2
    exact hne (getD_inj T.len T.nd f4 hi he).symm
  · exact H.twins _ T.us _ f4 h0 h2.symm

/-! ### One round -/

/-- Links of the two parts through a face that contains the edge. -/
def Half (I : In) (sg : Nat → Bool) (A : Nat → Nat) (k f x y : Nat) : Prop :=
  (link A (I.iel k) f = 0 → x = 0 ∧ y = 0) ∧
  ∀ m < I.n, link A (I.iel k) f / 4 = I.iel m →
    (sg k = sg m → x = link A (I.iel k) f ∧ y = 4 * I.new m + link A (I.iel k) f % 4) ∧
    (sg k ≠ sg m → x = 4 * I.new m + link A (I.iel k) f % 4 ∧ y = link A (I.iel k) f)

/-- The positions before and after. -/
theorem Pre.pq (H : Pre I A V used na nb) {k : Nat} (hk : k < I.n) (h2 : 2 ≤ I.n) :
    prv I.n k < I.n ∧ nxtp I.n k < I.n ∧ ∃ p q, (p = I.t k 2 ∧ q = I.t k 3 ∨ p = I.t k 3 ∧ q = I.t k 2) ∧
      link A (I.iel k) p ≠ 0 ∧ link A (I.iel k) p / 4 = I.iel (prv I.n k) ∧
      ((I.op && (decide (k = 0) || decide (k = I.n - 1))) = true → link A (I.iel k) q = 0) ∧
      ((I.op && (decide (k = 0) || decide (k = I.n - 1))) = false →
        link A (I.iel k) q ≠ 0 ∧ link A (I.iel k) q / 4 = I.iel (nxtp I.n k)) := by
  obtain ⟨fwd, bwd, hth, hlk, hop, hcl⟩ := H.round.faces
  have T := H.tet hk
  obtain ⟨tf, tb, hne⟩ := hth k hk
  have cf := (T.thru _ tf.1).1 tf
  have cb := (T.thru _ tb.1).1 tb
  have hfb : fwd k = I.t k 2 ∧ bwd k = I.t k 3 ∨ fwd k = I.t k 3 ∧ bwd k = I.t k 2 := by
    rcases cf with a | a <;> rcases cb with b | b
    · exact absurd (a.trans b.symm) hne
    · exact .inl ⟨a, b⟩
    · exact .inr ⟨a, b⟩
    · exact absurd (a.trans b.symm) hne
  have b4 : ∀ m < I.n, bwd m < 4 := fun m hm => (hth m hm).2.1.1
  have f4 : ∀ m < I.n, fwd m < 4 := fun m hm => (hth m hm).1.1
  -- forward link
  have hF : ∀ j, j + 1 < I.n → link A (I.iel j) (fwd j) ≠ 0 ∧ link A (I.iel j) (fwd j) / 4 = I.iel (j + 1) := by
    intro j hj
    have e := hlk j hj
    have p := H.iel_pos hj
    have b := b4 _ hj
    unfold In.iel at *
    omega
  -- backward link
  have hB : ∀ j, j + 1 < I.n → link A (I.iel (j + 1)) (bwd (j + 1)) ≠ 0 ∧
      link A (I.iel (j + 1)) (bwd (j + 1)) / 4 = I.iel j := by
    intro j hj
    have e := hlk j hj
    obtain ⟨e0, e1⟩ := hF j hj
    have hj' : j < I.n := by omega
    obtain ⟨_, _, hs, _⟩ := H.mesh.adj.ok _ (H.round.used j hj') _ (f4 j hj') e0
    have p := H.iel_pos hj'
    have b := b4 _ hj
    have f := f4 _ hj'
    rw [e, show (4 * (I.l (j + 1) / 6) + bwd (j + 1)) / 4 = I.l (j + 1) / 6 by omega,
      show (4 * (I.l (j + 1) / 6) + bwd (j + 1)) % 4 = bwd (j + 1) by omega] at hs
    unfold In.iel at *
    omega
  have hLast : I.op = false → link A (I.iel (I.n - 1)) (fwd (I.n - 1)) ≠ 0 ∧
      link A (I.iel (I.n - 1)) (fwd (I.n - 1)) / 4 = I.iel 0 := by
    intro h
    have e := hcl h
    have p := H.iel_pos (k := 0) (by omega)
    have b := b4 0 (by omega)
    unfold In.iel at *
    omega
  have hFirst : I.op = false → link A (I.iel 0) (bwd 0) ≠ 0 ∧ link A (I.iel 0) (bwd 0) / 4 = I.iel (I.n - 1) := by
    intro h
    have e := hcl h
    obtain ⟨e0, e1⟩ := hLast h
    have hj' : I.n - 1 < I.n := by omega
    obtain ⟨_, _, hs, _⟩ := H.mesh.adj.ok _ (H.round.used _ hj') _ (f4 _ hj') e0
    have p := H.iel_pos hj'
    have b := b4 0 (by omega)
    have f := f4 _ hj'
    rw [e, show (4 * (I.l 0 / 6) + bwd 0) / 4 = I.l 0 / 6 by omega,
      show (4 * (I.l 0 / 6) + bwd 0) % 4 = bwd 0 by omega] at hs
    unfold In.iel at *
    omega
  by_cases k0 : k = 0
  · subst k0
    simp only [prv, nxtp, if_true]
    refine ⟨by omega, by omega, fwd 0, bwd 0, hfb, (hF 0 (by omega)).1, (hF 0 (by omega)).2, ?_, ?_⟩
    · intro h
      have : I.op = true := by simpa using h
      exact (hop this).2
    · intro h
      have : I.op = false := by simpa using h
      exact hFirst this
  · have hB' := hB (k - 1) (by omega)
    rw [show k - 1 + 1 = k by omega] at hB'
    by_cases kn : k = I.n - 1
    · simp only [prv, nxtp, if_neg k0, if_pos kn]
      have e2 : I.n - 2 = k - 1 := by omega
      rw [e2]
      refine ⟨by omega, by omega, bwd k, fwd k, hfb.symm.imp And.symm And.symm, hB'.1, hB'.2, ?_, ?_⟩
      · intro h
        have : I.op = true := by simpa [kn] using h
        have := (hop this).1
        rw [kn]; exact this
      · intro h
        have : I.op = false := by simpa [kn] using h
        have := hLast this
        rw [kn]; exact this
    · simp only [prv, nxtp, if_neg k0, if_neg kn]
      refine ⟨by omega, by omega, bwd k, fwd k, hfb.symm.imp And.symm And.symm, hB'.1, hB'.2, ?_, ?_⟩
      · intro h; simp [k0, kn] at h
      · intro _; exact hF k (by omega)

theorem link_side {sg : Nat → Bool} {B : Nat → Nat} {k f m : Nat} (h1 : 1 ≤ I.iel k) (h2 : 1 ≤ I.new k) (hf : f < 4)
    (hne : I.iel k ≠ I.new k) {e i : Nat} (he : 1 ≤ e) (hi : i < 4) :
    link (side I sg B k f m) e i =
      if e = I.new k ∧ i = f then (if sg k = sg m then 4 * I.new m + link B (I.iel k) f % 4 else link B (I.iel k) f)
      else if e = I.iel k ∧ i = f then
        (if sg k = sg m then link B (I.iel k) f else 4 * I.new m + link B (I.iel k) f % 4)
      else link B e i := by
  unfold side
  split
  · rw [link_set h2 he hf hi, link_set h1 he hf hi]
  · rw [link_set h2 he hf hi, link_set h1 he hf hi]

theorem link_free {B : Nat → Nat} {k f : Nat} (h1 : 1 ≤ I.iel k) (h2 : 1 ≤ I.new k) (hf : f < 4) {e i : Nat}
    (he : 1 ≤ e) (hi : i < 4) :
    link (free I B k f) e i = if e = I.new k ∧ i = f then 0 else if e = I.iel k ∧ i = f then 0 else link B e i := by
  unfold free
  rw [link_set h2 he hf hi, link_set h1 he hf hi]

/-- The links through the two faces that contain the edge: the assertions hold, the halves are linked. -/
theorem Pre.around_ok (H : Pre I A V used na nb) {k : Nat} (hk : k < I.n) (sg : Nat → Bool) {B : Nat → Nat}
    (hB : ∀ i < 4, link B (I.iel k) i = link A (I.iel k) i) :
    ∃ B', around I sg k B = some B' ∧
      (∀ f, f = I.t k 2 ∨ f = I.t k 3 → Half I sg A k f (link B' (I.iel k) f) (link B' (I.new k) f)) ∧
      ∀ e i, 1 ≤ e → i < 4 → (e = I.iel k ∨ e = I.new k → i ≠ I.t k 2 ∧ i ≠ I.t k 3) →
        link B' e i = link B e i := by
  have T := H.tet hk
  have a2 := T.perm.lt 2 (by decide)
  have a3 := T.perm.lt 3 (by decide)
  have b23 : I.t k 2 ≠ I.t k 3 := fun e => absurd (T.perm.inj 2 (by decide) 3 (by decide) e) (by decide)
  have p1 := H.iel_pos hk
  have p2 := H.fresh.pos k hk
  have hne := H.iel_new hk hk
  have hinj : ∀ m < I.n, ∀ m' < I.n, I.iel m = I.iel m' → m = m' := H.round.inj
  have L2 := hB _ a2
  have L3 := hB _ a3
  -- generic facts
  have half_side : ∀ f, f < 4 → ∀ m < I.n, ∀ x y, link A (I.iel k) f ≠ 0 → link A (I.iel k) f / 4 = I.iel m →
      x = (if sg k = sg m then link A (I.iel k) f else 4 * I.new m + link A (I.iel k) f % 4) →
      y = (if sg k = sg m then 4 * I.new m + link A (I.iel k) f % 4 else link A (I.iel k) f) →
      Half I sg A k f x y := by
    intro f hf m hm x y h0 h4 hx hy
    refine ⟨fun h => absurd h h0, fun m' hm' h => ?_⟩
    have : m' = m := hinj _ hm' _ hm (h.symm.trans h4)
    subst this
    by_cases hs : sg k = sg m'
    · rw [if_pos hs] at hx hy
      exact ⟨fun _ => ⟨hx, hy⟩, fun h => absurd hs h⟩
    · rw [if_neg hs] at hx hy
      exact ⟨fun h => absurd h hs, fun _ => ⟨hx, hy⟩⟩
  have half_free : ∀ f, link A (I.iel k) f = 0 → Half I sg A k f 0 0 := by
    intro f h0
    refine ⟨fun _ => ⟨rfl, rfl⟩, fun m hm h => ?_⟩
    rw [h0] at h
    have := H.iel_pos hm
    omega
  -- the four shapes of the result
  have shapeSF : ∀ f g, f < 4 → g < 4 → f ≠ g → (f = I.t k 2 ∧ g = I.t k 3 ∨ f = I.t k 3 ∧ g = I.t k 2) →
      ∀ m < I.n, link A (I.iel k) f ≠ 0 → link A (I.iel k) f / 4 = I.iel m → link A (I.iel k) g = 0 →
      (∀ f', f' = I.t k 2 ∨ f' = I.t k 3 → Half I sg A k f' (link (free I (side I sg B k f m) k g) (I.iel k) f')
        (link (free I (side I sg B k f m) k g) (I.new k) f')) ∧
      ∀ e i, 1 ≤ e → i < 4 → (e = I.iel k ∨ e = I.new k → i ≠ I.t k 2 ∧ i ≠ I.t k 3) →
        link (free I (side I sg B k f m) k g) e i = link B e i := by
    intro f g hf hg hfg hc m hm h0 h4 hg0
    have e1 : ∀ e i, 1 ≤ e → i < 4 → link (free I (side I sg B k f m) k g) e i = _ := fun e i he hi =>
      (link_free p1 p2 hg he hi).trans (by rw [link_side p1 p2 hf hne he hi, hB f hf])
    have hff : Half I sg A k f (link (free I (side I sg B k f m) k g) (I.iel k) f)
        (link (free I (side I sg B k f m) k g) (I.new k) f) := by
      refine half_side f hf m hm _ _ h0 h4 ?_ ?_
      · rw [e1 _ _ p1 hf]; simp [hne, hfg]
      · rw [e1 _ _ p2 hf]; simp [hfg]
    have hgg : Half I sg A k g (link (free I (side I sg B k f m) k g) (I.iel k) g)
        (link (free I (side I sg B k f m) k g) (I.new k) g) := by
      have := half_free g hg0
      rw [e1 _ _ p1 hg, e1 _ _ p2 hg]; simpa using this
    constructor
    · rintro f' (rfl | rfl) <;> rcases hc with ⟨rfl, rfl⟩ | ⟨rfl, rfl⟩ <;> assumption
    · intro e i he hi hx
      rw [e1 e i he hi]
      have : (e = I.iel k ∨ e = I.new k → i ≠ f ∧ i ≠ g) := fun h => by
        rcases hc with ⟨rfl, rfl⟩ | ⟨rfl, rfl⟩
        · exact hx h
        · exact (hx h).symm
      rw [if_neg (fun h => (this (.inr h.1)).2 h.2), if_neg (fun h => (this (.inl h.1)).2 h.2),
        if_neg (fun h => (this (.inr h.1)).1 h.2), if_neg (fun h => (this (.inl h.1)).1 h.2)]
  have shapeSS : ∀ f g, f < 4 → g < 4 → f ≠ g → (f = I.t k 2 ∧ g = I.t k 3 ∨ f = I.t k 3 ∧ g = I.t k 2) →
      ∀ m < I.n, ∀ m' < I.n, link A (I.iel k) f ≠ 0 → link A (I.iel k) f / 4 = I.iel m →
      link A (I.iel k) g ≠ 0 → link A (I.iel k) g / 4 = I.iel m' →
      (∀ f', f' = I.t k 2 ∨ f' = I.t k 3 →
        Half I sg A k f' (link (side I sg (side I sg B k f m) k g m') (I.iel k) f')
        (link (side I sg (side I sg B k f m) k g m') (I.new k) f')) ∧
      ∀ e i, 1 ≤ e → i < 4 → (e = I.iel k ∨ e = I.new k → i ≠ I.t k 2 ∧ i ≠ I.t k 3) →
        link (side I sg (side I sg B k f m) k g m') e i = link B e i := by
    intro f g hf hg hfg hc m hm m' hm' h0 h4 h0' h4'
    have eg : link (side I sg B k f m) (I.iel k) g = link A (I.iel k) g := by
      rw [link_side p1 p2 hf hne p1 hg, if_neg (fun h => hfg h.2.symm), if_neg (fun h => hfg h.2.symm), hB g hg]
    have e1 : ∀ e i, 1 ≤ e → i < 4 → link (side I sg (side I sg B k f m) k g m') e i = _ := fun e i he hi =>
      (link_side p1 p2 hg hne he hi).trans (by rw [eg, link_side p1 p2 hf hne he hi, hB f hf])
    have hff : Half I sg A k f (link (side I sg (side I sg B k f m) k g m') (I.iel k) f)
        (link (side I sg (side I sg B k f m) k g m') (I.new k) f) := by
      refine half_side f hf m hm _ _ h0 h4 ?_ ?_
      · rw [e1 _ _ p1 hf]; simp [hne, hfg]
      · rw [e1 _ _ p2 hf]; simp [hfg]
    have hgg : Half I sg A k g (link (side I sg (side I sg B k f m) k g m') (I.iel k) g)
        (link (side I sg (side I sg B k f m) k g m') (I.new k) g) := by
      refine half_side g hg m' hm' _ _ h0' h4' ?_ ?_
      · rw [e1 _ _ p1 hg]; simp [hne]
      · rw [e1 _ _ p2 hg]; simp
    constructor
    · rintro f' (rfl | rfl) <;> rcases hc with ⟨rfl, rfl⟩ | ⟨rfl, rfl⟩ <;> assumption
    · intro e i he hi hx
      rw [e1 e i he hi]
      have : (e = I.iel k ∨ e = I.new k → i ≠ f ∧ i ≠ g) := fun h => by
        rcases hc with ⟨rfl, rfl⟩ | ⟨rfl, rfl⟩
        · exact hx h
        · exact (hx h).symm
      rw [if_neg (fun h => (this (.inr h.1)).2 h.2), if_neg (fun h => (this (.inl h.1)).2 h.2),
        if_neg (fun h => (this (.inr h.1)).1 h.2), if_neg (fun h => (this (.inl h.1)).1 h.2)]
  by_cases h1 : I.n = 1
  · -- one tetrahedron
    have k0 : k = 0 := by omega
    subst k0
    obtain ⟨fwd, bwd, hth, _, hop, hcl⟩ := H.round.faces
    obtain ⟨tf, tb, hfb⟩ := hth 0 hk
    have ho : I.op = true := by
      by_contra h
      have e := hcl (by simpa using h)
      rw [h1] at e
      have b := tb.1
      obtain ⟨_, hself, _⟩ := H.mesh.adj.ok _ T.us _ tf.1 (by unfold In.iel at *; simp only [Nat.sub_self] at e; omega)
      apply hself
      unfold In.iel at *
      simp only [Nat.sub_self] at e
      omega
    obtain ⟨z1, z2⟩ := hop ho
    rw [h1] at z1
    have z : ∀ f, f = I.t 0 2 ∨ f = I.t 0 3 → link A (I.iel 0) f = 0 := by
      intro f hf
      have cf := (T.thru _ tf.1).1 tf
      have cb := (T.thru _ tb.1).1 tb
      have : f = fwd 0 ∨ f = bwd 0 := by
        rcases cf with a | a <;> rcases cb with b | b <;> rcases hf with c | c <;> omega
      rcases this with rfl | rfl
      · exact z1
      · exact z2
    unfold around
    simp only [h1, if_true, ho]
    refine ⟨_, rfl, ?_, ?_⟩
    · intro f hf
      have f4 : f < 4 := by rcases hf with rfl | rfl <;> assumption
      have e1 : ∀ e, 1 ≤ e → (e = I.iel 0 ∨ e = I.new 0) →
          link (free I (free I B 0 (I.t 0 2)) 0 (I.t 0 3)) e f = 0 := by
        intro e he hc
        rw [link_free p1 p2 a3 he f4, link_free p1 p2 a2 he f4]
        rcases hf with rfl | rfl <;> rcases hc with rfl | rfl <;> simp
      rw [e1 _ p1 (.inl rfl), e1 _ p2 (.inr rfl)]
      exact half_free f (z f hf)
    · intro e i he hi hx
      rw [link_free p1 p2 a3 he hi, link_free p1 p2 a2 he hi,
        if_neg (fun h => (hx (.inr h.1)).2 h.2), if_neg (fun h => (hx (.inl h.1)).2 h.2),
        if_neg (fun h => (hx (.inr h.1)).1 h.2), if_neg (fun h => (hx (.inl h.1)).1 h.2)]
  · have h2 : 2 ≤ I.n := by have := H.round.pos; omega
    obtain ⟨hp, hq, p, q, hpq, lp0, lp, le, lne⟩ := H.pq hk h2
    have pp := H.iel_pos hp
    unfold around
    simp only [if_neg h1, L2, L3]
    generalize (I.op && (decide (k = 0) || decide (k = I.n - 1))) = en at *
    by_cases c1 : I.iel (prv I.n k) = link A (I.iel k) (I.t k 2) / 4
    · rw [if_pos c1]
      have z2 : link A (I.iel k) (I.t k 2) ≠ 0 := by intro h; rw [h] at c1; omega
      cases en with
      | true =>
        simp only [if_true]
        have z3 : link A (I.iel k) (I.t k 3) = 0 := by
          rcases hpq with ⟨rfl, rfl⟩ | ⟨rfl, rfl⟩
          · exact le rfl
          · exact absurd (le rfl) z2
        exact ⟨_, rfl, shapeSF _ _ a2 a3 b23 (.inl ⟨rfl, rfl⟩) _ hp z2 c1.symm z3⟩
      | false =>
        obtain ⟨lq0, lq⟩ := lne rfl
        have c2 : I.iel (nxtp I.n k) = link A (I.iel k) (I.t k 3) / 4 := by
          rcases hpq with ⟨rfl, rfl⟩ | ⟨rfl, rfl⟩
          · exact lq.symm
          · rw [← lq, ← c1, lp]
        have z3 : link A (I.iel k) (I.t k 3) ≠ 0 := by
          intro h; rw [h] at c2; have := H.iel_pos hq; omega
        simp only [Bool.false_eq_true, if_false]
        rw [if_pos c2]
        exact ⟨_, rfl, shapeSS _ _ a2 a3 b23 (.inl ⟨rfl, rfl⟩) _ hp _ hq z2 c1.symm z3 c2.symm⟩
    · rw [if_neg c1]
      have hp3 : p = I.t k 3 ∧ q = I.t k 2 := by
        rcases hpq with ⟨rfl, rfl⟩ | h
        · exact absurd lp.symm c1
        · exact h
      obtain ⟨rfl, rfl⟩ := hp3
      rw [if_pos lp.symm]
      cases en with
      | true =>
        simp only [if_true]
        exact ⟨_, rfl, shapeSF _ _ a3 a2 b23.symm (.inr ⟨rfl, rfl⟩) _ hp lp0 lp (le rfl)⟩
      | false =>
        obtain ⟨lq0, lq⟩ := lne rfl
        simp only [Bool.false_eq_true, if_false]
        rw [if_pos lq.symm]
        exact ⟨_, rfl, shapeSS _ _ a3 a2 b23.symm (.inr ⟨rfl, rfl⟩) _ hp _ hq lp0 lp lq0 lq⟩

end

end Mmg.Spl1b
