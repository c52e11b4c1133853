/-
  C75: discretization of a level set in a mesh of triangles, in the plane and on a surface.
-/
import Verif.LsTriOne
import Verif.MatProps

namespace Mmg.Ls2
open Mmg.Split3 Mmg.Ls3

/-! ### Specification -/

section
variable {K : Type} [Field K] [LinearOrder K]

/-- The situation: thresholds, fresh numbers, complete triangles, enough memory for the table;
the values are 0 or larger than the threshold (C75_snap: this holds after the snapping). -/
structure Given (E : Env) (eps e2 : K) (sol : Nat → K) (ms : List Tri) : Prop where
  small : 0 < e2
  pos : 0 < eps
  half : 2 * eps ≤ 1
  fresh : Fresh E.new ms
  wf : ∀ m ∈ ms, WF m
  vals : ∀ m ∈ ms, ∀ p ∈ m.v, sol p = 0 ∨ e2 < |sol p|
  mem : ∀ n, E.ok n = true

/-- `pt a b` is the new point of the edge `a b` (0: none): the edges with a point are those that
have to be cut; each one has its own point, a new one, on the zero of the level set. -/
structure EdgePoints (E : Env) (eps : K) (c : Nat → Pt K) (sol : Nat → K) (ms : List Tri)
    (c' : Nat → Pt K) (sol' : Nat → K) (pt : Nat → Nat → Nat) : Prop where
  symm : ∀ a b, pt a b = pt b a
  iff : ∀ a b, pt a b ≠ 0 ↔ Wanted E.spl sol ms a b
  new : ∀ a b, pt a b ≠ 0 → ∃ q, pt a b = E.new q
  inj : ∀ a b a' b', pt a b ≠ 0 → pt a b = pt a' b' → (a = a' ∧ b = b') ∨ (a = b' ∧ b = a')
  zero : ∀ a b, pt a b ≠ 0 → sol' (pt a b) = 0 ∧ OnZero eps c sol a b (c' (pt a b))
  old : ∀ m ∈ ms, ∀ p ∈ m.v, c' p = c p ∧ sol' p = sol p

/-- A piece of the triangle `m`: its vertices are vertices of `m` or points of edges of `m`, the data
of its edges come from `m`; it has the reference of `m`. -/
def Piece (pt : Nat → Nat → Nat) (m x : Tri) : Prop :=
  WF x ∧ x.ref = m.ref ∧
    (∀ p ∈ x.v, p ∈ m.v ∨ ∃ a ∈ m.v, ∃ b ∈ m.v, pt a b ≠ 0 ∧ p = pt a b) ∧
    Inherits m (fun e => pt (ends m e).1 (ends m e).2) x

end

/-! ### Lemmas -/

section
variable {K : Type} [Field K] [LinearOrder K] [IsStrictOrderedRing K]
  {surf : Bool} {E : Env} {eps e2 : K} {c : Nat → Pt K} {sol : Nat → K} {r : Nat → Int} {ms : List Tri}
  {alloc : Bool}

theorem Given.vol3 (G : Given E eps e2 sol ms) : ∀ m ∈ ms, m.v.length = 3 :=
  fun m hm => (G.wf m hm).v

theorem opposite_abs (G : Given E eps e2 sol ms) {m : Tri} (hm : m ∈ ms) {a b : Nat} (ha : a ∈ m.v)
    (hb : b ∈ m.v) (h : Opposite sol a b) : e2 < |sol a| ∧ e2 < |sol b| := by
  constructor
  · rcases G.vals m hm a ha with h0 | h0
    · rcases h with ⟨h1, _⟩ | ⟨h1, _⟩ <;> rw [h0] at h1 <;> exact absurd h1 (lt_irrefl _)
    · exact h0
  · rcases G.vals m hm b hb with h0 | h0
    · rcases h with ⟨_, h1⟩ | ⟨_, h1⟩ <;> rw [h0] at h1 <;> exact absurd h1 (lt_irrefl _)
    · exact h0

theorem cut3_none (T : Tab) (m : Tri) (h : ∀ e < 3, vxOf T m e = 0) :
    cut3 surf (vxOf T m) m = ([m], false) := by
  unfold cut3 flagOf
  rw [h 0 (by omega), h 1 (by omega), h 2 (by omega)]
  rfl

/-- What is known after a cut that did not fail. -/
theorem cuttri_spec (G : Given E eps e2 sol ms)
    (h : (cuttri surf E alloc eps e2 c sol r ms).ret ≠ 0) :
    Inv E eps c sol ms (edges ms) (cuttri surf E alloc eps e2 c sol r ms).s ∧
    (cuttri surf E alloc eps e2 c sol r ms).ms =
      (ms.flatMap fun m => (cut3 surf (vxOf (cuttri surf E alloc eps e2 c sol r ms).s.tab m) m).1) ∧
    (cuttri surf E alloc eps e2 c sol r ms).r = refs (cuttri surf E alloc eps e2 c sol r ms).s.tab ms r := by
  have hf := foldl_mark1 e2 sol (edges ms) ⟨fun _ => 0, 0⟩ (by simp)
  obtain ⟨f1, _, f3⟩ := hf
  have hflag : ∀ x ∈ edges ms, Opposite sol (ends x.1 x.2).1 (ends x.1 x.2).2 →
      (pass1 e2 sol ms).flag (ends x.1 x.2).1 ≠ 0 ∧ (pass1 e2 sol ms).flag (ends x.1 x.2).2 ≠ 0 := by
    intro x hx ho
    obtain ⟨hm, he⟩ := mem_edges.1 hx
    obtain ⟨ma, mb⟩ := ends_mem (G.vol3 _ hm) x.2
    obtain ⟨a1, a2⟩ := opposite_abs G hm ma mb ho
    exact f3 x hx a1 a2 ho.mul
  have I0 : Inv E eps c sol ms [] (⟨c, sol, noTab, 0⟩ : S3 K) := by
    refine ⟨fun p _ => ⟨rfl, rfl⟩, ?_, ?_, ?_, ?_, ?_⟩
    · intro a b; simp [noTab, Tab.find]
    · intro a b hpos; simp [noTab, Tab.find] at hpos
    · intro a b a' b' hpos; simp [noTab, Tab.find] at hpos
    · intro q hq; simp at hq
    · intro x hx; simp at hx
  unfold cuttri at h ⊢
  simp only at h ⊢
  by_cases hnb : (pass1 e2 sol ms).nb = 0
  · rw [if_pos hnb] at h ⊢
    have hv : ∀ (m : Tri) (e : Nat), vxOf noTab m e = 0 := by intro m e; simp [vxOf, noTab, Tab.find]
    refine ⟨⟨I0.keep, I0.nneg, I0.pt, I0.inj, I0.all, ?_⟩, ?_, ?_⟩
    · intro x hx hw _
      exact absurd hnb (f1 _ (hflag x hx hw.1).1)
    · have : ∀ m : Tri, cut3 surf (vxOf noTab m) m = ([m], false) := fun m =>
        cut3_none _ _ (fun e _ => hv m e)
      simp only [this]
      induction ms with
      | nil => rfl
      | cons a l _ => simp
    · simp only [refs]
      generalize edges ms = l
      induction l with
      | nil => rfl
      | cons a l ih => rw [List.foldl_cons]; simp only [refs3, hv]; simpa [refs3, hv] using ih
  · rw [if_neg hnb] at h ⊢
    by_cases hal : alloc = false
    · rw [if_pos hal] at h; exact absurd rfl h
    rw [if_neg hal] at h ⊢
    cases hp : points E eps e2 (pass1 e2 sol ms).flag (edges ms) ⟨c, sol, noTab, 0⟩ with
    | none => simp only [hp] at h; exact absurd rfl h
    | some s =>
      simp only
      have := points_spec G.half G.small G.mem G.fresh G.vol3 G.vals hflag (edges ms) (fun _ h => h) I0 hp
      rw [List.nil_append] at this
      exact ⟨this, by trivial, by trivial⟩

theorem Inv.points (G : Given E eps e2 sol ms) {s : S3 K} (I : Inv E eps c sol ms (edges ms) s) :
    EdgePoints E eps c sol ms s.c s.sol fun a b => (s.tab.find a b).toNat := by
  have hpos : ∀ a b, (s.tab.find a b).toNat ≠ 0 ↔ 0 < s.tab.find a b := by intro a b; omega
  refine ⟨fun a b => by simp only [find_comm s.tab a b], ?_, ?_, ?_, ?_, ?_⟩
  · intro a b
    rw [hpos]
    constructor
    · intro h
      obtain ⟨q, _, _, hw, _⟩ := I.pt a b h
      exact hw
    · rintro ⟨ho, m, hm, hs, ha, hb⟩
      obtain ⟨e, he, h | h⟩ := exists_edge (G.vol3 m hm) ha hb ho.ne
      · have := I.done (m, e) (mem_edges.2 ⟨hm, he⟩)
        rw [h] at this
        exact this ⟨ho, m, hm, hs, ha, hb⟩ hs
      · have := I.done (m, e) (mem_edges.2 ⟨hm, he⟩)
        rw [h] at this
        rw [find_comm]
        exact this ⟨ho.symm, m, hm, hs, hb, ha⟩ hs
  · intro a b h
    obtain ⟨q, _, hq, _⟩ := I.pt a b ((hpos a b).1 h)
    exact ⟨q, by rw [hq]; rfl⟩
  · intro a b a' b' h he
    have h1 := (hpos a b).1 h
    have h0 := I.nneg a' b'
    have h2 : s.tab.find a' b' = s.tab.find a b := by omega
    exact I.inj a b a' b' h1 h2
  · intro a b h
    obtain ⟨q, _, hq, _, hz, hO⟩ := I.pt a b ((hpos a b).1 h)
    have : (s.tab.find a b).toNat = E.new q := by rw [hq]; rfl
    simp only [this]
    exact ⟨hz, hO⟩
  · intro m hm p hp
    exact I.keep p fun i _ hc => G.fresh.out i m hm (hc ▸ hp)

/-- The three edges of a triangle are not all cut. -/
theorem not7 {pt : Nat → Nat → Nat} {c' : Nat → Pt K} {sol' : Nat → K}
    (P : EdgePoints E eps c sol ms c' sol' pt) (m : Tri) :
    ¬ (pt (ends m 0).1 (ends m 0).2 ≠ 0 ∧ pt (ends m 1).1 (ends m 1).2 ≠ 0 ∧ pt (ends m 2).1 (ends m 2).2 ≠ 0) := by
  rintro ⟨h0, h1, h2⟩
  have o0 := ((P.iff _ _).1 h0).1
  have o1 := ((P.iff _ _).1 h1).1
  have o2 := ((P.iff _ _).1 h2).1
  have e0 : ends m 0 = (m.v.getD 1 0, m.v.getD 2 0) := rfl
  have e1 : ends m 1 = (m.v.getD 2 0, m.v.getD 0 0) := rfl
  have e2 : ends m 2 = (m.v.getD 0 0, m.v.getD 1 0) := rfl
  rw [e0] at o0
  rw [e1] at o1
  rw [e2] at o2
  unfold Opposite at o0 o1 o2
  simp only at o0 o1 o2
  rcases o0 with ⟨a1, a2⟩ | ⟨a1, a2⟩ <;> rcases o1 with ⟨b1, b2⟩ | ⟨b1, b2⟩ <;>
    rcases o2 with ⟨d1, d2⟩ | ⟨d1, d2⟩ <;> linarith

/-- Different edges of a triangle have different ends. -/
theorem ends_inj {m : Tri} (wf : WF m) {e f : Nat} (he : e < 3) (hf : f < 3) (hne : e ≠ f) :
    ¬ (((ends m e).1 = (ends m f).1 ∧ (ends m e).2 = (ends m f).2) ∨
      ((ends m e).1 = (ends m f).2 ∧ (ends m e).2 = (ends m f).1)) := by
  obtain ⟨a, b, d, t0, t1, t2, e0, e1, e2, r, rfl, h1, h2, h3⟩ := wf.eq
  match e, f, he, hf with
  | 0, 0, _, _ => exact absurd rfl hne
  | 1, 1, _, _ => exact absurd rfl hne
  | 2, 2, _, _ => exact absurd rfl hne
  | 0, 1, _, _ => simp only [ends0, ends1]; tauto
  | 0, 2, _, _ => simp only [ends0, ends2]; tauto
  | 1, 0, _, _ => simp only [ends0, ends1]; tauto
  | 1, 2, _, _ => simp only [ends2, ends1]; tauto
  | 2, 0, _, _ => simp only [ends0, ends2]; tauto
  | 2, 1, _, _ => simp only [ends2, ends1]; tauto

theorem piece_one (G : Given E eps e2 sol ms) {pt : Nat → Nat → Nat} {c' : Nat → Pt K} {sol' : Nat → K}
    (P : EdgePoints E eps c sol ms c' sol' pt) {m : Tri} (hm : m ∈ ms) :
    ∀ x ∈ (cut3 surf (fun e => pt (ends m e).1 (ends m e).2) m).1, Piece pt m x := by
  intro x hx
  have wf := G.wf m hm
  obtain ⟨h1, h2, h3, h4⟩ := cut3_inherits wf (not7 P m)
    (by
      intro e _ hne hmem
      obtain ⟨q, hq⟩ := P.new _ _ hne
      rw [hq] at hmem
      exact G.fresh.out q m hm hmem)
    (by
      intro e he f hf hef hne heq
      exact ends_inj wf he hf hef (P.inj _ _ _ _ hne heq)) x hx
  refine ⟨h1, h2, fun p hp => ?_, h3⟩
  rcases h4 p hp with h | ⟨e, he, hne, rfl⟩
  · exact .inl h
  · obtain ⟨ma, mb⟩ := ends_mem wf.v e
    exact .inr ⟨_, ma, _, mb, hne, rfl⟩

/-! ### C75 -/

/-- **C75.** The vertices are kept with their values; the new points are one for each edge to be
cut, on the zero of the level set, with value 0.  Each triangle of the result is a piece of one of
the mesh and has its data. -/
theorem C75_points (G : Given E eps e2 sol ms)
    (h : (cuttri surf E alloc eps e2 c sol r ms).ret ≠ 0) :
    ∃ pt, EdgePoints E eps c sol ms (cuttri surf E alloc eps e2 c sol r ms).s.c
        (cuttri surf E alloc eps e2 c sol r ms).s.sol pt ∧
      ∀ x ∈ (cuttri surf E alloc eps e2 c sol r ms).ms, ∃ m ∈ ms, Piece pt m x := by
  obtain ⟨I, hms, _⟩ := cuttri_spec G h
  refine ⟨_, I.points G, ?_⟩
  rw [hms]
  intro x hx
  obtain ⟨m, hm, hx⟩ := List.mem_flatMap.1 hx
  exact ⟨m, hm, piece_one G (I.points G) hm x hx⟩

/-- **C75.** No triangle of a reference that is split crosses the level set any more, and it has
a vertex that is not on the level set (unless a triangle of the mesh has none). -/
theorem C75_sides (G : Given E eps e2 sol ms) (hnz : ∀ m ∈ ms, ∃ p ∈ m.v, sol p ≠ 0)
    (h : (cuttri surf E alloc eps e2 c sol r ms).ret ≠ 0) :
    ∀ x ∈ (cuttri surf E alloc eps e2 c sol r ms).ms, (E.spl x.ref).isSome →
      Clean (cuttri surf E alloc eps e2 c sol r ms).s.sol x.v := by
  obtain ⟨I, hms, _⟩ := cuttri_spec G h
  have P := I.points G
  rw [hms]
  intro x hx hs
  obtain ⟨m, hm, hx⟩ := List.mem_flatMap.1 hx
  have hp := piece_one (surf := surf) G P hm x hx
  rw [hp.2.1] at hs
  refine cut3_clean (G.wf m hm) (sol := sol) (fun p hp => (P.old m hm p hp).2) ?_ ?_ (hnz m hm) x hx
  · intro e _ hne
    exact (P.zero _ _ hne).1
  · intro e _
    obtain ⟨ma, mb⟩ := ends_mem (G.vol3 m hm) e
    constructor
    · intro hne
      exact ((P.iff _ _).1 hne).1
    · intro ho
      exact (P.iff _ _).2 ⟨ho, m, hm, hs, ma, mb⟩

theorem sum_flatMap {α β : Type} {M : Type} [AddCommMonoid M] (l : List α) (f : α → List β) (g : β → M) :
    ((l.flatMap f).map g).sum = (l.map fun a => ((f a).map g).sum).sum := by
  induction l with
  | nil => rfl
  | cons a l ih => simp only [List.flatMap_cons, List.map_append, List.sum_append, ih, List.map_cons, List.sum_cons]

/-- **C75.** The result is conform where the mesh is: the edges of the triangles of the result are
the edges of the triangles of the mesh, cut at their new point, each one as often as before, and inner
edges that are in two triangles. -/
theorem C75_conform (G : Given E eps e2 sol ms)
    (h : (cuttri surf E alloc eps e2 c sol r ms).ret ≠ 0) :
    ∃ pt, EdgePoints E eps c sol ms (cuttri surf E alloc eps e2 c sol r ms).s.c
        (cuttri surf E alloc eps e2 c sol r ms).s.sol pt ∧
      ∃ inn : Multiset (Sym2 Nat),
        ((cuttri surf E alloc eps e2 c sol r ms).ms.map sides).sum =
          ((edges ms).map fun x =>
            cutSide (ends x.1 x.2).1 (ends x.1 x.2).2 (pt (ends x.1 x.2).1 (ends x.1 x.2).2)).sum + (inn + inn) := by
  obtain ⟨I, hms, hrr⟩ := cuttri_spec G h
  have P := I.points G
  refine ⟨_, P, ?_⟩
  rw [hms, sum_flatMap]
  unfold edges
  rw [sum_flatMap]
  have h7 := not7 P
  have hwf := G.wf
  generalize (cuttri surf E alloc eps e2 c sol r ms).s.tab = T at *
  clear P hms I h G hrr
  induction ms with
  | nil => exact ⟨0, rfl⟩
  | cons m l ih =>
    obtain ⟨inn, hi⟩ := ih (fun m hm => hwf m (List.mem_cons_of_mem _ hm))
    obtain ⟨inn', hi'⟩ := cut3_sides (surf := surf)
      (vx := fun e => (T.find (ends m e).1 (ends m e).2).toNat) (hwf m List.mem_cons_self) (h7 m)
    refine ⟨inn' + inn, ?_⟩
    rw [List.map_cons, List.sum_cons, List.map_cons, List.sum_cons, hi]
    have : (cut3 surf (vxOf T m) m).1 =
      (cut3 surf (fun e => (T.find (ends m e).1 (ends m e).2).toNat) m).1 := rfl
    rw [this, hi']
    simp only [List.range, List.range.loop, List.map_cons, List.map_nil, List.sum_cons, List.sum_nil]
    abel

end

end Mmg.Ls2
