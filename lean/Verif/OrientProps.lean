/-
C80: the analysis of the surface orients it.

After the adjacency of the triangles is known, a traversal gives all the triangles of a connected part of the surface
the same orientation.  Whatever the numbering, the orientations given and the number of components:

* the traversal ends, and if it succeeds the mesh is the same up to the order of the vertices inside the triangles:
  neighbours, edge references and tags stay with their edge, links are still reciprocal, the components are numbered,
  open sides become non-manifold, sides between different references become reference edges, and vertices receive the
  marks of their edges;
* if the surface can be oriented, the traversal succeeds, all ordinary edges are traversed in opposite directions by
  their two triangles, and the triangle of lowest number of each component (with all the triangles that agree with it)
  is left untouched;
* the error "Moebius strip?" is therefore never raised for an orientable surface.

The converse does not hold: `C80_moebius_accepted_observed` is a surface that cannot be oriented and is accepted, and left
with triangles of contradictory orientations (the sign used to recognise the triangles that have already been seen is
changed at each visit, so after an even number of visits the triangle is turned over again).
-/
import Verif.OrientWalk
import Verif.HashTriaProps

namespace Mmg.Orient
open Mmg.Hash (Outcome)

variable {E : Env} {s : St}

/-! ### First state -/

theorem init_inv (G : Good E s) : Inv E s (fun _ => 1) (fun _ _ => False) 0 [] 1 (fun _ => 1)
    { s with flag := if s.v 1 0 = 0 then set1 s.flag 1 1 else s.flag } := by
  have hfl : ∀ k, Ex E s k → (if s.v 1 0 = 0 then set1 s.flag 1 1 else s.flag) k = 0 := by
    intro k hk
    split
    · rename_i h
      rw [set1_ne _ _ _ (fun e : k = 1 => hk.2.2 (by rw [e]; exact h))]; exact G.flag k hk
    · exact G.flag k hk
  refine ⟨⟨fun _ _ _ => rfl, fun _ _ => rfl, fun _ _ _ => rfl, ?_⟩, ⟨fun _ _ _ => Or.inl rfl, fun _ _ _ h => h.elim⟩, ?_,
    ⟨fun _ _ h => h.elim, fun _ _ h => h.elim, ?_, fun _ h => absurd h List.not_mem_nil, ?_, ?_, ?_, ?_⟩, ?_⟩
  · intro k i hk
    show s.adj k i = code _ (s.adj k i)
    unfold code
    split
    · assumption
    · show _ = 3 * (s.adj k i / 3) + s.adj k i % 3
      omega
  · intro b _ p
    simp
  · intro k hk h; exact absurd (hfl k hk) h
  · intro k hk
    show (if s.v 1 0 = 0 then set1 s.flag 1 1 else s.flag) k ≤ 1
    rw [hfl k hk]; omega
  · intro k k' hk _ _ h; exact absurd (hfl k hk) h
  · intro k hk h; exact absurd (hfl k hk) h
  · intro k hk h; have := hk.1; omega
  · intro k hk _; exact ⟨rfl, G.base k hk⟩

theorem cnt_le (flag : Nat → Nat) : cnt E s flag ≤ E.nt := by
  unfold cnt
  exact (List.countP_le_length).trans (by rw [List.length_range'])

/-- What the traversal does, in terms of the invariant. -/
theorem setadj_inv (G : Good E s) :
    (setadj E s = .fail ∧ ∀ f, ¬ Orients E s f) ∨
    ∃ s' n σ sd, setadj E s = .ok (s', n) ∧ Ends E s σ sd s' n ∧ ∀ f, Orients E s f → OInv E s f sd σ s'.flag := by
  have I0 := init_inv G
  have O0 : ∀ f, OInv E s f (fun _ => 1) (fun _ => 1) (if s.v 1 0 = 0 then set1 s.flag 1 1 else s.flag) := by
    intro f k hk h
    exfalso; apply h
    split
    · rename_i h1
      rw [set1_ne _ _ _ (fun e : k = 1 => hk.2.2 (by rw [e]; exact h1))]; exact G.flag k hk
    · exact G.flag k hk
  unfold setadj
  by_cases h1 : s.v 1 0 = 0
  · simp only [h1, if_true] at I0 O0
    have hw : walk E (2 * E.nt + 2) s [1] 1 = walk E (2 * E.nt + 1) { s with flag := set1 s.flag 1 1 } [] 1 := by
      rw [walk]; simp only; rw [if_pos h1]
    rw [hw]
    have hm : meas E s (set1 s.flag 1 1) [] < 2 * E.nt + 1 := by
      have := cnt_le (E := E) (s := s) (set1 s.flag 1 1)
      unfold meas; rw [List.length_nil]; omega
    rcases walk_inv G _ I0 (by decide) hm with ⟨a, b⟩ | ⟨s', n, σ, sd, a, b, c⟩
    · exact Or.inl ⟨a, fun f O => b f O (O0 f)⟩
    · exact Or.inr ⟨s', n, σ, sd, a, b, fun f O => c f O (O0 f)⟩
  · simp only [h1, if_false] at I0 O0
    have hk : Ex E s 1 := ⟨le_refl _, G.some, h1⟩
    have h0 := G.flag 1 hk
    have hw : walk E (2 * E.nt + 2) s [1] 1 = walk E (2 * E.nt + 2) { s with flag := set1 s.flag 1 1 } [1] 1 := by
      rw [walk, walk]
      have : set1 (set1 s.flag 1 1) 1 1 = set1 s.flag 1 1 := set1_id _ _ _ (set1_self _ _ _)
      simp only [this]
    rw [hw]
    have I1 : Inv E s (fun _ => 1) (fun _ _ => False) 0 [1] 1 (fun _ => 1) { s with flag := set1 s.flag 1 1 } := by
      have z : ∀ k, Ex E s k → set1 s.flag 1 1 k ≠ 0 → k = 1 := by
        intro k hk' h
        by_contra e
        rw [set1_ne _ _ _ e] at h
        exact h (G.flag k hk')
      refine ⟨I0.rel.congr rfl rfl rfl, I0.tags, I0.pts,
        ⟨fun _ _ h => h.elim, fun _ _ h => h.elim, ?_, ?_, ?_, ?_, ?_, ?_⟩, ?_⟩
      · intro k hk' h _ h' j
        exact absurd (by rw [z k hk' h]; exact List.mem_cons_self) h'
      · intro k h
        have : k = 1 := by simpa using h
        rw [this]; exact ⟨hk, set1_self s.flag 1 1⟩
      · intro k hk'
        show set1 s.flag 1 1 k ≤ 1
        unfold set1; split
        · exact le_refl _
        · rw [G.flag k hk']; omega
      · intro k k' h1 h2 h3 h4
        have h3' : set1 s.flag 1 1 k = set1 s.flag 1 1 k' := h3
        rw [z k h1 h4, z k' h2 (by rw [← h3']; exact h4)]
        exact Relation.ReflTransGen.refl
      · intro k h1 h2
        have := z k h1 h2
        subst this
        exact ⟨le_refl _, hk, rfl⟩
      · intro k h1 h2; have := h1.1; omega
      · intro k h1 _; exact ⟨rfl, G.base k h1⟩
    have O1 : ∀ f, OInv E s f (fun _ => 1) (fun _ => 1) (set1 s.flag 1 1) := by
      intro f k hk' h
      have : k = 1 := by
        by_contra e
        rw [set1_ne _ _ _ e] at h
        exact h (G.flag k hk')
      subst this
      exact ⟨by rw [odd_one]; simp, fun _ => rfl⟩
    have hm : meas E s (set1 s.flag 1 1) [1] < 2 * E.nt + 2 := by
      have := cnt_le (E := E) (s := s) (set1 s.flag 1 1)
      unfold meas; rw [List.length_singleton]; omega
    rcases walk_inv G _ I1 (by decide) hm with ⟨a, b⟩ | ⟨s', n, σ, sd, a, b, c⟩
    · exact Or.inl ⟨a, fun f O => b f O (O1 f)⟩
    · exact Or.inr ⟨s', n, σ, sd, a, b, fun f O => c f O (O1 f)⟩

theorem Ends.renum (G : Good E s) {σ sd s' n} (h : Ends E s σ sd s' n) : Renum E s s' σ := by
  have R := h.inv.rel
  refine ⟨R.v, R.edg, ?_, ?_, ?_, R.dead, R.linked G⟩
  · exact fun k i hk => h.inv.tags.done k i hk hk
  · exact fun k i hk => R.adj0 G hk
  · intro k i hk h0
    refine ⟨R.nb hk h0, ?_⟩
    rw [R.nb hk h0, R.np hk h0, Equiv.apply_symm_apply]

theorem Ends.comps {σ sd s' n} (h : Ends E s σ sd s' n) : Comps E s s' n := by
  have F := h.inv.flags
  refine ⟨fun k hk => ⟨Nat.one_le_iff_ne_zero.2 (h.all k hk), F.le k hk⟩, ?_⟩
  intro k k' hk hk'
  refine ⟨fun e => F.conn k k' hk hk' e (h.all k hk), fun e => ?_⟩
  have : ∀ x, Conn E s k x → s'.flag x = s'.flag k := by
    intro x hx
    induction hx with
    | refl => rfl
    | tail _ h2 ih =>
      obtain ⟨a, i, hc, rfl⟩ := h2
      rw [F.dNb _ i a hc, ih]
  exact (this k' e).symm

theorem Ends.marked {σ sd s' n} (h : Ends E s σ sd s' n) {b} (hb : b ∈ bits) : Marked E s s' b :=
  fun p => h.inv.pts b hb p

/-! ### C80 -/

/-- The traversal ends, with success or with the error. -/
theorem C80_ends (G : Good E s) : setadj E s = .fail ∨ ∃ s' n, setadj E s = .ok (s', n) := by
  rcases setadj_inv G with ⟨a, _⟩ | ⟨s', n, _, _, a, _⟩
  · exact Or.inl a
  · exact Or.inr ⟨s', n, a⟩

/-- If it succeeds the mesh is the same up to the order of the vertices in the triangles, the components are numbered
and the special edges have marked their vertices. -/
theorem C80_same_surface (G : Good E s) {s' n} (h : setadj E s = .ok (s', n)) :
    (∃ σ, Renum E s s' σ) ∧ Comps E s s' n ∧
    Marked E s s' mgNOM ∧ Marked E s s' mgREF ∧ Marked E s s' mgGEO ∧ Marked E s s' mgREQ := by
  rcases setadj_inv G with ⟨a, _⟩ | ⟨s1, n1, σ, sd, a, b, _⟩
  · rw [h] at a; exact absurd a (by simp)
  · rw [h] at a
    injection a with a
    obtain ⟨rfl, rfl⟩ := Prod.mk.inj a
    exact ⟨⟨σ, b.renum G⟩, b.comps, b.marked (by decide), b.marked (by decide), b.marked (by decide), b.marked (by decide)⟩

/-- What "left out" means in these statements: edges of the parallel interface that are not boundary edges, and edges that
are already boundary edges. -/
theorem C80_left_out (t : BitVec 16) :
    skipped t = true ↔ (has t mgPARBDY = true ∧ has t mgPARBDYBDY = false) ∨ has t mgBDY = true := by
  unfold skipped
  cases has t mgPARBDY <;> cases has t mgPARBDYBDY <;> cases has t mgBDY <;> decide

/-- Vertices required by the user stay so, and those frozen by the program only do not become so. -/
def Kept (pt pt' : Nat → BitVec 16) : Prop := ∀ p,
  (has (pt p) mgREQ = true → has (pt p) mgNOSURF = false → has (pt' p) mgREQ = true ∧ has (pt' p) mgNOSURF = false) ∧
  (has (pt p) mgNOSURF = true → has (pt' p) mgNOSURF = true)

theorem Kept.refl (pt : Nat → BitVec 16) : Kept pt pt := fun _ => ⟨fun a b => ⟨a, b⟩, id⟩

theorem Kept.trans {a b c : Nat → BitVec 16} (h : Kept a b) (h' : Kept b c) : Kept a c := fun p =>
  ⟨fun x y => (h' p).1 ((h p).1 x y).1 ((h p).1 x y).2, fun x => (h' p).2 ((h p).2 x)⟩

theorem kept_give (f : Nat → BitVec 16) (p : Nat) (t : BitVec 16) : Kept f (giveP f p t) := by
  intro q
  unfold giveP set1
  by_cases h : q = p
  · subst h
    rw [if_pos rfl]
    refine ⟨fun a b => ?_, fun a => ?_⟩
    · rw [a, b, if_pos (by decide), has_nosurf (by decide), has_or, a]
      refine ⟨rfl, ?_⟩
      generalize f q ||| t = x
      unfold has
      rw [BitVec.and_assoc, show ~~~mgNOSURF &&& mgNOSURF = 0#16 by decide]
      simp
    · rw [a, Bool.not_true, Bool.and_false, if_neg (by decide), has_or, a]; rfl
  · rw [if_neg h]; exact Kept.refl f q

theorem kept_or (f : Nat → BitVec 16) (p : Nat) {t : BitVec 16} (ht : has t mgNOSURF = false) : Kept f (orP f p t) := by
  intro q
  rw [has_orP, has_orP, ht]
  refine ⟨fun a b => ?_, fun a => ?_⟩
  · rw [a, b]; simp
  · rw [a]; rfl

theorem kept_side {s s' : St} {ncc k i pile pile'} (h : side E ncc k i s pile = .ok (s', pile')) :
    Kept s.ptag s'.ptag := by
  have g : ∀ x y t, Kept s.ptag (giveP (giveP s.ptag x t) y t) := fun x y t =>
    (kept_give _ x t).trans (kept_give _ y t)
  have o : ∀ (f : Nat → BitVec 16) x y {t}, has t mgNOSURF = false → Kept f (orP (orP f x t) y t) := fun f x y t ht =>
    (kept_or f x ht).trans (kept_or _ y ht)
  unfold side at h
  split at h
  · cases h; exact Kept.refl _
  dsimp only at h
  have hs : Kept s.ptag (if special (s.tag k i) = true then ({ s with
      ptag := giveP (giveP s.ptag (s.v k (i + 1)) (s.tag k i)) (s.v k (i + 2)) (s.tag k i) } : St) else s).ptag := by
    split
    · exact g _ _ _
    · exact Kept.refl _
  generalize (if special (s.tag k i) = true then ({ s with
      ptag := giveP (giveP s.ptag (s.v k (i + 1)) (s.tag k i)) (s.v k (i + 2)) (s.tag k i) } : St) else s) = s1 at h hs
  refine hs.trans ?_
  split at h
  · cases h
    refine o _ _ _ ?_
    cases E.opnbdy <;> decide
  split at h
  · cases h
    exact o _ _ _ (by decide)
  have hr : Kept s1.ptag (if (E.ref (s1.adj k i / 3)).natAbs ≠ (E.ref k).natAbs then ({ s1 with
      tag := set2 (set2 s1.tag k i (s1.tag k i ||| mgREF)) (s1.adj k i / 3) (m3 (s1.adj k i))
        (set2 s1.tag k i (s1.tag k i ||| mgREF) (s1.adj k i / 3) (m3 (s1.adj k i)) ||| mgREF)
      ptag := orP (orP s1.ptag (s.v k (i + 1)) mgREF) (s.v k (i + 2)) mgREF } : St) else s1).ptag := by
    split
    · exact o _ _ _ (by decide)
    · exact Kept.refl _
  generalize (if (E.ref (s1.adj k i / 3)).natAbs ≠ (E.ref k).natAbs then ({ s1 with
      tag := set2 (set2 s1.tag k i (s1.tag k i ||| mgREF)) (s1.adj k i / 3) (m3 (s1.adj k i))
        (set2 s1.tag k i (s1.tag k i ||| mgREF) (s1.adj k i / 3) (m3 (s1.adj k i)) ||| mgREF)
      ptag := orP (orP s1.ptag (s.v k (i + 1)) mgREF) (s.v k (i + 2)) mgREF } : St) else s1) = s2 at h hr
  refine hr.trans ?_
  have hf : (if s2.flag (s1.adj k i / 3) = 0 then ({ s2 with flag := set1 s2.flag (s1.adj k i / 3) ncc } : St)
      else s2).ptag = s2.ptag := by split <;> rfl
  generalize (if s2.flag (s1.adj k i / 3) = 0 then ({ s2 with flag := set1 s2.flag (s1.adj k i / 3) ncc } : St)
      else s2) = s3 at h hf
  rw [← hf]
  split at h
  · split at h
    · cases h
    · cases h; exact Kept.refl _
  · cases h; exact Kept.refl _

theorem kept_sides {ncc k : Nat} : ∀ (l : List (Fin 3)) {s s' : St} {pile pile'},
    sides E ncc k l s pile = .ok (s', pile') → Kept s.ptag s'.ptag
  | [], s, s', pile, pile', h => by cases h; exact Kept.refl _
  | i :: r, s, s', pile, pile', h => by
    rw [sides] at h
    cases hs : side E ncc k i s pile with
    | ok x =>
      obtain ⟨s1, p1⟩ := x
      rw [hs] at h
      exact (kept_side hs).trans (kept_sides r h)
    | fail => rw [hs] at h; cases h
    | ub => rw [hs] at h; cases h

theorem kept_walk : ∀ (fuel : Nat) {s s' : St} {pile : List Nat} {ncc n : Nat}, walk E fuel s pile ncc = .ok (s', n) →
    Kept s.ptag s'.ptag
  | 0, s, s', pile, ncc, n, h => by cases h
  | fuel + 1, s, s', [], ncc, n, h => by
    rw [walk] at h
    split at h
    · rename_i k _
      have := kept_walk fuel h
      exact this
    · cases h; exact Kept.refl _
  | fuel + 1, s, s', k :: pile, ncc, n, h => by
    rw [walk] at h
    dsimp only at h
    split at h
    · have := kept_walk fuel h
      exact this
    · split at h
      · rename_i s1 p1 hs
        exact (kept_sides _ hs).trans (kept_walk fuel h)
      · cases h
      · cases h

/-- **C80.** A vertex required by the user stays required for good (it does not get the mark of the vertices the program
freezes for its own use), and a vertex frozen by the program keeps this mark. -/
theorem C80_required_vertices {s' : St} {n : Nat} (h : setadj E s = .ok (s', n)) (p : Nat) :
    (has (s.ptag p) mgREQ = true → has (s.ptag p) mgNOSURF = false →
      has (s'.ptag p) mgREQ = true ∧ has (s'.ptag p) mgNOSURF = false) ∧
    (has (s.ptag p) mgNOSURF = true → has (s'.ptag p) mgNOSURF = true) := kept_walk _ h p

/-- A surface that can be oriented is oriented; the triangle of lowest number of each component decides. -/
theorem C80_oriented (G : Good E s) {f : Nat → Bool} (O : Orients E s f) :
    ∃ s' n σ, setadj E s = .ok (s', n) ∧ Renum E s s' σ ∧
      (∀ k i, Ex E s' k → Cross s' k i → Opp s' k i) ∧
      ∀ k m, Ex E s k → First E s k m → (f k = f m → σ k = 1) ∧ (f k ≠ f m → odd (σ k) = true) := by
  rcases setadj_inv G with ⟨_, a⟩ | ⟨s', n, σ, sd, a, b, c⟩
  · exact absurd O (a f)
  · have OI := c f O
    have R := b.inv.rel
    refine ⟨s', n, σ, a, b.renum G, ?_, ?_⟩
    · intro k i hk hc
      rw [R.ex G] at hk
      have h0 : s.adj k (σ k i) ≠ 0 := fun e => hc.1 ((R.adj0 G hk).2 e)
      have hC : Cross s k (σ k i) := by
        refine ⟨h0, ?_, ?_⟩
        · rw [← tag_skipped b.inv.tags hk]; exact hc.2.1
        · rw [← tag_nom b.inv.tags hk h0]; exact hc.2.2
      have hkk := (cross_back G hk hC).1
      have h1 := (OI k hk (b.all k hk)).1
      have h2 := (OI _ hkk (b.all _ hkk)).1
      have h3 := b.inv.flags.dNb k (σ k i) hk hC
      rw [h3] at h2
      rcases (R.linked G k i ((R.ex G k).2 hk) hc.1).2.2.2 with hS | hS
      · exfalso
        have := (same_iff R G O hk hC).1 hS
        rw [h1, h2] at this
        revert this
        cases f k <;> cases f (nb s k (σ k i)) <;> cases f (sd (s'.flag k)) <;> decide
      · exact hS
    · intro k m hk hm
      have F := b.inv.flags
      have hs := F.sdl k hk (b.all k hk)
      have e : sd (s'.flag k) = m := by
        apply le_antisymm
        · have hf : s'.flag k = s'.flag m := (b.comps.same k m hk hm.1).2 hm.2.1
          have := F.sdl m hm.1 (b.all m hm.1)
          rw [← hf] at this
          exact this.1
        · exact hm.2.2 _ hs.2.1 ((b.comps.same k _ hk hs.2.1).1 hs.2.2.symm)
      have h1 := OI k hk (b.all k hk)
      rw [e] at h1
      constructor
      · intro hf
        exact h1.2 (by rw [h1.1, hf]; simp)
      · intro hf
        rw [h1.1]; simpa using hf

/-- The error is raised only for surfaces that cannot be oriented. -/
theorem C80_error_only_if_not_orientable (G : Good E s) (h : setadj E s = .fail) : ¬ ∃ f, Orients E s f := by
  rintro ⟨f, O⟩
  obtain ⟨s', n, σ, a, _⟩ := C80_oriented G O
  rw [h] at a; exact absurd a (by simp)

/-- A surface that is already oriented keeps all its triangles. -/
theorem C80_oriented_unchanged (G : Good E s) (h : ∀ k i, Ex E s k → Cross s k i → Opp s k i) :
    ∃ s' n, setadj E s = .ok (s', n) ∧ s'.v = s.v ∧
      ∀ k i, Ex E s k → s'.edg k i = s.edg k i ∧ s'.adj k i = s.adj k i ∧ s'.tag k i = s.tag k i ||| ext E s k i := by
  have O : Orients E s (fun _ => false) := fun k i hk hc => ⟨fun _ => h k i hk hc, fun e => absurd rfl e⟩
  rcases setadj_inv G with ⟨_, a⟩ | ⟨s', n, σ, sd, a, b, c⟩
  · exact absurd O (a _)
  · have OI := c _ O
    have hσ : ∀ k, Ex E s k → σ k = 1 := by
      intro k hk
      have := OI k hk (b.all k hk)
      exact this.2 (by rw [this.1]; simp)
    have R := b.inv.rel
    have N := b.renum G
    refine ⟨s', n, a, ?_, ?_⟩
    · funext k i
      by_cases hk : Ex E s k
      · rw [R.v k i hk, hσ k hk]; rfl
      · rw [R.dead k hk]
    · intro k i hk
      have e : σ k i = i := by rw [hσ k hk]; rfl
      refine ⟨by rw [R.edg k i hk, e], ?_, by rw [N.tag k i hk, e]⟩
      rw [R.adj k i hk, e]
      unfold code
      split
      · rename_i h0; exact h0.symm
      · rename_i h0
        have := (G.link k i hk h0).1
        unfold nb at this
        rw [hσ _ this]
        show 3 * (s.adj k i / 3) + s.adj k i % 3 = s.adj k i
        omega

/-! ### After the construction of the adjacency (C07) -/

/-- The state given by the model of `MMG5_mmgHashTria`, with the fields it initialises. -/
def ofHash (s : HTri.St) (edg : Nat → Fin 3 → Int) (base : Int) : St :=
  { v := fun k i => s.v k i.val
    adj := fun k i => s.adj (HTri.aidx k i.val)
    tag := fun k i => s.tag k i.val
    edg := edg
    flag := fun _ => 0
    base := fun _ => base
    ptag := s.ptag }

theorem inxt_val (i : Fin 3) : (i + 1 : Fin 3).val = HTri.inxt2 i.val := by revert i; decide
theorem iprv_val (i : Fin 3) : (i + 2 : Fin 3).val = HTri.iprv2 i.val := by revert i; decide

/-- The hypotheses of the theorems above are what the construction of the adjacency provides, for triangulations whose
edges carry neither marks of the parallel code nor the marks `MG_BDY` and `MG_NOM`. -/
theorem C80_after_C07 {H : HTri.Env} {v : Nat → Nat → Nat} {tag : Nat → Nat → BitVec 16} {pt : Nat → BitVec 16}
    {np hm : Nat} {s1 : HTri.St} (G : HTri.Good H v) (hg : ∀ c n, H.g c = some n → 1 ≤ n) (h1 : 1 ≤ np) (h2 : np ≤ hm)
    (hnt : 1 ≤ H.nt) (ht : ∀ k i, has (tag k i) mgPARBDY = false ∧ has (tag k i) mgBDY = false ∧ has (tag k i) mgNOM = false)
    (hr : HTri.hashTria H np hm v tag pt = .ok s1) (edg : Nat → Fin 3 → Int) {base : Int} (hb : 0 < base) (op : Bool) :
    Good ⟨H.nt, H.ref, op⟩ (ofHash s1 edg base) := by
  have S : HTri.Surface H v tag pt s1 := by
    rcases HTri.C07_surface_adjacency G hg h1 h2 with ⟨a, _⟩ | ⟨s2, a, b⟩
    · rw [hr] at a; exact absurd a (by simp)
    · rw [hr] at a; injection a with a; rw [a]; exact b
  have hv : ∀ k i, (ofHash s1 edg base).v k i = v k i.val := fun k i => by
    show s1.v k i.val = _
    rw [S.tris]
  have hpar : ∀ k i, HTri.onlyPar (tag k i) = false := by
    intro k i
    have := (ht k i).1
    unfold HTri.onlyPar
    have e : ((tag k i &&& HTri.parBdy) != 0#16) = false := this
    rw [e]; rfl
  have htag : ∀ k i, s1.tag k i = HTri.addIf (HTri.Takes H v tag (k, i) ∧ 3 ≤ (HTri.sharing H v tag (k, i)).length)
      HTri.nom (tag k i) := by
    intro k i
    have := S.tags (k, i)
    rw [HTri.addIf_neg] at this
    · exact this
    · rintro ⟨⟨z, _, ⟨_, hz⟩, _⟩, _⟩
      rw [hpar] at hz; exact absurd hz (by decide)
  have hskip : ∀ k i, skipped (s1.tag k i) = false := by
    intro k i
    rw [htag]
    unfold HTri.addIf skipped
    split
    · rw [has_or, has_or, has_or, (ht k i).1, (ht k i).2.1]
      have e1 : has HTri.nom mgPARBDY = false := by decide
      have e2 : has HTri.nom mgBDY = false := by decide
      rw [e1, e2]; rfl
    · rw [(ht k i).1, (ht k i).2.1]; rfl
  have hnom : ∀ k i, (has (s1.tag k i) mgNOM = true ↔
      HTri.Takes H v tag (k, i) ∧ 3 ≤ (HTri.sharing H v tag (k, i)).length) := by
    intro k i
    rw [htag]
    unfold HTri.addIf
    split
    · rename_i h
      rw [has_or]
      have e1 : has HTri.nom mgNOM = true := by decide
      rw [e1]; simp [h]
    · rename_i h
      rw [(ht k i).2.2]; simp only [Bool.false_eq_true, false_iff]; exact h
  have hlink : ∀ k (i : Fin 3), 1 ≤ k → k ≤ H.nt → (ofHash s1 edg base).adj k i ≠ 0 → ∃ y, 
      HTri.IsSide H y ∧ (ofHash s1 edg base).adj k i = 3 * y.1 + y.2 ∧
      s1.link y = 3 * k + i.val ∧ HTri.Takes H v tag (k, i.val) ∧ HTri.Takes H v tag y ∧ y.1 ≠ k ∧
      HTri.SameEnds v (k, i.val) y := by
    intro k i a b c
    obtain ⟨y, h1, h2, h3, h4, h5, h6⟩ := S.sym (k, i.val) ⟨a, b, i.isLt⟩ c
    exact ⟨y, h4.1, h1, h2, h3, h4, h5, h6⟩
  have hnb : ∀ (y : Nat × Nat), y.2 < 3 → (3 * y.1 + y.2) / 3 = y.1 ∧ (m3 (3 * y.1 + y.2)).val = y.2 := by
    intro y h; unfold m3; simp only; omega
  refine ⟨hnt, ?_, ?_, ?_, ?_, fun _ _ => rfl, fun _ _ => hb⟩
  · intro k hk i
    rw [hv]
    exact G.pos k hk.1 hk.2.1 (by have := hk.2.2; rw [hv] at this; exact this) _ i.isLt
  · intro k hk i j e
    rw [hv, hv] at e
    obtain ⟨d1, d2, d3⟩ := G.dist k hk.1 hk.2.1 (by have := hk.2.2; rw [hv] at this; exact this)
    revert e
    revert i j
    have key : ∀ i j : Fin 3, i ≠ j → v k i.val ≠ v k j.val := by
      intro i j
      match i, j with
      | 0, 0 => exact fun h => absurd rfl h
      | 1, 1 => exact fun h => absurd rfl h
      | 2, 2 => exact fun h => absurd rfl h
      | 0, 1 => exact fun _ => d1
      | 1, 0 => exact fun _ => d1.symm
      | 1, 2 => exact fun _ => d2
      | 2, 1 => exact fun _ => d2.symm
      | 2, 0 => exact fun _ => d3
      | 0, 2 => exact fun _ => d3.symm
    intro i j e
    by_contra hne
    exact key i j hne e
  · intro k i hk h0
    obtain ⟨y, a, b, c, d, e, f, g⟩ := hlink k i hk.1 hk.2.1 h0
    obtain ⟨n1, n2⟩ := hnb y a.2.2
    have hn : nb (ofHash s1 edg base) k i = y.1 := by unfold nb; rw [b]; exact n1
    have hp : (Orient.np (ofHash s1 edg base) k i).val = y.2 := by unfold Orient.np; rw [b]; exact n2
    refine ⟨?_, ?_, ?_, ?_⟩
    · rw [hn]
      refine ⟨a.1, a.2.1, ?_⟩
      rw [hv]; exact e.2.1
    · rw [hn]; exact f
    · rw [hn]
      show s1.adj (HTri.aidx y.1 _) = _
      rw [hp]; exact c
    · unfold Same Opp
      simp only [hv, hn, inxt_val, iprv_val, hp]
      rcases g with g | g
      · exact Or.inl ⟨g.1.symm, g.2.symm⟩
      · exact Or.inr ⟨g.2.symm, g.1.symm⟩
  · intro k i hk h0
    obtain ⟨y, a, b, c, d, e, f, g⟩ := hlink k i hk.1 hk.2.1 h0
    obtain ⟨n1, n2⟩ := hnb y a.2.2
    have hn : nb (ofHash s1 edg base) k i = y.1 := by unfold nb; rw [b]; exact n1
    have hp : (Orient.np (ofHash s1 edg base) k i).val = y.2 := by unfold Orient.np; rw [b]; exact n2
    have hs : HTri.sharing H v tag (k, i.val) = HTri.sharing H v tag y := by
      rw [HTri.sharing_eq, HTri.sharing_eq, HTri.sameEnds_iff.1 g]
    refine ⟨?_, ?_⟩
    · show skipped (s1.tag _ _) = skipped (s1.tag _ _)
      rw [hskip, hskip]
    · show has (s1.tag (nb (ofHash s1 edg base) k i) (Orient.np (ofHash s1 edg base) k i).val) mgNOM =
        has (s1.tag k i.val) mgNOM
      rw [hn, hp, Bool.eq_iff_iff, hnom, hnom, hs]
      exact ⟨fun x => ⟨d, x.2⟩, fun x => ⟨e, x.2⟩⟩

/-! ### Concrete surfaces -/

/-- Triangles and links from lists. -/
def ofL (v a : List (List Nat)) : St :=
  { v := fun k i => (v.getD (k - 1) []).getD i.val 0
    adj := fun k i => (a.getD (k - 1) []).getD i.val 0
    tag := fun _ _ => 0#16
    edg := fun k i => 10 * k + i.val
    flag := fun _ => 0
    base := fun _ => 1
    ptag := fun _ => 0#16 }

instance (E : Env) (s : St) (k) : Decidable (Ex E s k) := by unfold Ex; infer_instance
instance (s : St) (k i) : Decidable (Same s k i) := by unfold Same; infer_instance
instance (s : St) (k i) : Decidable (Opp s k i) := by unfold Opp; infer_instance
instance (s : St) (k i) : Decidable (Cross s k i) := by unfold Cross; infer_instance

theorem range_of {E : Env} {s : St} {P : Nat → Prop} (h : ∀ k ∈ List.range' 1 E.nt, s.v k 0 ≠ 0 → P k) :
    ∀ k, Ex E s k → P k := by
  intro k hk
  exact h k (by rw [List.mem_range'_1]; have := hk.1; have := hk.2.1; omega) hk.2.2

theorem good_of {E : Env} {s : St} (h0 : 1 ≤ E.nt) (h : ∀ k ∈ List.range' 1 E.nt, s.v k 0 ≠ 0 →
    (∀ i, s.v k i ≠ 0) ∧ (∀ i j, s.v k i = s.v k j → i = j) ∧
    (∀ i, s.adj k i ≠ 0 → Ex E s (nb s k i) ∧ nb s k i ≠ k ∧ s.adj (nb s k i) (np s k i) = 3 * k + i.val ∧
      (Same s k i ∨ Opp s k i)) ∧
    (∀ i, s.adj k i ≠ 0 → skipped (s.tag (nb s k i) (np s k i)) = skipped (s.tag k i) ∧
      has (s.tag (nb s k i) (np s k i)) mgNOM = has (s.tag k i) mgNOM) ∧ s.flag k = 0 ∧ 0 < s.base k) : Good E s := by
  have H := range_of (E := E) (s := s) h
  exact ⟨h0, fun k hk => (H k hk).1, fun k hk => (H k hk).2.1, fun k i hk => (H k hk).2.2.1 i,
    fun k i hk => (H k hk).2.2.2.1 i, fun k hk => (H k hk).2.2.2.2.1, fun k hk => (H k hk).2.2.2.2.2⟩

/-- The surface of a tetrahedron, one face turned over, with a lone triangle attached nowhere. -/
def tetra : St := ofL [[1, 2, 3], [1, 4, 2], [1, 4, 3], [2, 4, 3], [5, 6, 7]]
  [[12 + 1, 9 + 1, 6 + 1], [12 + 2, 3 + 2, 9 + 2], [12 + 0, 3 + 1, 6 + 2], [9 + 0, 3 + 0, 6 + 0], [0, 0, 0]]
def envT : Env := ⟨5, fun k => if k = 4 then 2 else 1, false⟩
def turn3 (k : Nat) : Bool := k == 3

theorem tetra_good : Good envT tetra := good_of (by decide) (by decide +kernel)
theorem tetra_orients : Orients envT tetra turn3 := by
  intro k i hk
  revert i
  exact range_of (E := envT) (s := tetra) (P := fun k => ∀ i, Cross tetra k i →
    (turn3 (nb tetra k i) = turn3 k → Opp tetra k i) ∧ (turn3 (nb tetra k i) ≠ turn3 k → Same tetra k i))
    (by decide +kernel) k hk

example := C80_ends tetra_good
example := C80_oriented tetra_good tetra_orients
/-- The third face is turned over, its edge references follow, there are two components. -/
example : (match setadj envT tetra with
    | .ok (s', n) => decide (n = 2 ∧ (List.range' 1 5).map s'.flag = [1, 1, 1, 1, 2] ∧
        [s'.v 3 0, s'.v 3 1, s'.v 3 2] = [3, 4, 1] ∧ [s'.edg 3 0, s'.edg 3 1, s'.edg 3 2] = [32, 31, 30] ∧
        s'.adj 4 0 = 9 + 2 ∧ s'.adj 1 1 = 9 + 1 ∧ s'.tag 4 1 = mgREF ∧ s'.tag 5 0 = mgNOM ∧ s'.ptag 5 = mgNOM ∧
        s'.ptag 1 = 0#16 ∧ s'.ptag 2 = mgREF)
    | _ => false) = true := by decide +kernel

example {s' n} (h : setadj envT tetra = .ok (s', n)) := C80_same_surface tetra_good h

/-- A Moebius strip of five triangles. -/
def strip : St := ofL [[1, 2, 3], [2, 3, 4], [3, 4, 5], [4, 5, 1], [5, 1, 2]]
  [[6 + 2, 0, 15 + 0], [9 + 2, 0, 3 + 0], [12 + 2, 0, 6 + 0], [15 + 2, 0, 9 + 0], [3 + 2, 0, 12 + 0]]
def env5 : Env := ⟨5, fun _ => 1, false⟩
theorem strip_good : Good env5 strip := good_of (by decide) (by decide +kernel)
theorem strip_fail : setadj env5 strip = .fail := by
  have : (match setadj env5 strip with | .fail => true | _ => false) = true := by decide +kernel
  revert this
  cases setadj env5 strip <;> simp
example := C80_error_only_if_not_orientable strip_good strip_fail

/-- Two triangles with opposite directions on their edge. -/
def pair : St := ofL [[1, 2, 3], [3, 2, 4]] [[6 + 2, 0, 0], [0, 0, 3 + 0]]
def env2 : Env := ⟨2, fun k => k, true⟩
theorem pair_good : Good env2 pair := good_of (by decide) (by decide +kernel)
theorem pair_opp : ∀ k i, Ex env2 pair k → Cross pair k i → Opp pair k i := by
  intro k i hk
  revert i
  exact range_of (E := env2) (s := pair) (P := fun k => ∀ i, Cross pair k i → Opp pair k i) (by decide +kernel) k hk
example := C80_oriented_unchanged pair_good pair_opp

/-! ### A surface that cannot be oriented and is accepted -/

def wild : St := ofL [[5, 4, 3], [5, 2, 4], [7, 5, 1], [2, 5, 6], [7, 4, 1], [4, 7, 6], [2, 6, 4], [1, 5, 6]]
  [[0, 0, 7], [22, 5, 14], [26, 16, 0], [24, 23, 8], [0, 10, 20], [0, 21, 17], [19, 6, 13], [12, 0, 9]]
def env8 : Env := ⟨8, fun _ => 1, false⟩
theorem wild_good : Good env8 wild := good_of (by decide) (by decide +kernel)

theorem wild_not_orientable : ¬ ∃ f, Orients env8 wild f := by
  rintro ⟨f, O⟩
  have opp : ∀ k i k', Ex env8 wild k → Cross wild k i → nb wild k i = k' → ¬ Same wild k i → f k' = f k := by
    intro k i k' a b c d
    by_contra h
    exact d ((O k i a b).2 (by rw [c]; exact h))
  have same : ∀ k i k', Ex env8 wild k → Cross wild k i → nb wild k i = k' → ¬ Opp wild k i → f k' ≠ f k := by
    intro k i k' a b c d h
    exact d ((O k i a b).1 (by rw [c]; exact h))
  have a1 := same 4 0 8 (by decide +kernel) (by decide +kernel) (by decide +kernel) (by decide +kernel)
  have a2 := opp 3 0 8 (by decide +kernel) (by decide +kernel) (by decide +kernel) (by decide +kernel)
  have a3 := same 3 1 5 (by decide +kernel) (by decide +kernel) (by decide +kernel) (by decide +kernel)
  have a4 := opp 5 2 6 (by decide +kernel) (by decide +kernel) (by decide +kernel) (by decide +kernel)
  have a5 := same 6 1 7 (by decide +kernel) (by decide +kernel) (by decide +kernel) (by decide +kernel)
  have a6 := opp 4 1 7 (by decide +kernel) (by decide +kernel) (by decide +kernel) (by decide +kernel)
  revert a1 a2 a3 a4 a5 a6
  cases f 4 <;> cases f 8 <;> cases f 3 <;> cases f 5 <;> cases f 6 <;> cases f 7 <;> decide

/-- Finding: eight triangles that form a Moebius band with a branch are accepted, and triangles 2 and 7 end up with the
same direction along their common edge, which carries no mark. -/
theorem C80_moebius_accepted_observed :
    Good env8 wild ∧ (¬ ∃ f, Orients env8 wild f) ∧
    ∃ s' n, setadj env8 wild = .ok (s', n) ∧ ∃ k i, Ex env8 s' k ∧ Cross s' k i ∧ Same s' k i := by
  refine ⟨wild_good, wild_not_orientable, ?_⟩
  have h : (match setadj env8 wild with
    | .ok (s', _) => decide (∃ k ∈ List.range' 1 8, ∃ i, Ex env8 s' k ∧ Cross s' k i ∧ Same s' k i)
    | _ => false) = true := by decide +kernel
  cases hc : setadj env8 wild with
  | ub => rw [hc] at h; exact absurd h (by decide)
  | fail => rw [hc] at h; exact absurd h (by decide)
  | ok x =>
    obtain ⟨s', n⟩ := x
    rw [hc] at h
    simp only [decide_eq_true_eq] at h
    obtain ⟨k, _, i, a⟩ := h
    exact ⟨s', n, rfl, k, i, a⟩

end Mmg.Orient
