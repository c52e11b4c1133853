/-
  C97. Required vertices, edges and triangles come out of the surface remesher unchanged.
-/
import Verif.ReqSLemmas
import Verif.SurfEx

set_option linter.unusedSimpArgs false

namespace Mmg.ReqS

open Mmg.Tri2 Mmg.Req2 Relation

variable {K : Type}

/-- One body of the loops of mmgs1.c.  Collapse: the mesh around the removed vertex is a manifold (`Fine`).  Swap: the two opposite
vertices differ.  Pattern splitting: points that are taken back (`rm`) are new ones, each further triangle of a cut one has one free slot
(`own`), and the neighbours are computed anew (`adj`). -/
inductive Step : St K → St K → Prop
  | col {S : St K} {k : Nat} {i : Fin 3} {short : Bool} {geo : List HE → Bool} {lmax n : Nat} (hk : S.M.live k)
      (F : Fine S.M (k, i + 1)) : Step S (colBody S k i short geo lmax n)
  | swp {S : St K} {k : Nat} {i : Fin 3} {chk : Bool} (hk : S.M.live k)
      (hc : chk = true → ∀ o, S.M.adj (k, i) = some o → (S.M.tri k).v i ≠ (S.M.tri o.1).v o.2) : Step S (swpBody S k i chk)
  | spl {S : St K} {k : Nat} {i : Fin 3} {ip iel kel : Nat} {o : K} (hk : S.M.live k) (hp : Free S ip) (h10 : iel ≠ 0) (h20 : kel ≠ 0)
      (h6 : iel ≠ kel) (n1 : ¬ S.M.live iel) (n2 : ¬ S.M.live kel) : Step S (splBody S k i ip iel kel o)
  | mov {S : St K} {k : Nat} {i : Fin 3} {o : Option K} (hk : S.M.live k) : Step S (movBody S k i o)
  | ana {S : St K} {ws : List (Want K)} {rm : Nat → Bool} {own : Nat → Option (Nat × Nat)} {adj : HE → Option HE}
      (hw : ∀ w ∈ ws, S.M.live w.k ∧ Free S w.ip) (hr : ∀ p, rm p = true → ∃ w ∈ ws, w.ip = p) (hu : Even S.M)
      (ho : ∀ x k j, own x = some (k, j) → ¬ S.M.live x ∧ S.M.live k ∧ 0 < j ∧
        j < (Surf.splitAny (S.M.tri k) (marks S.M (drop rm (wants S ws)).1 k)).length)
      (ha : ∀ k j, S.M.live k → 0 < j → j < (Surf.splitAny (S.M.tri k) (marks S.M (drop rm (wants S ws)).1 k)).length →
        ∃ x, own x = some (k, j))
      (hv : Valid (anaBody S ws rm own adj).M) : Step S (anaBody S ws rm own adj)

theorem Step.ready {S S' : St K} (s : Step S S') (R : Ready S) : Ready S' ∧ Keeps S S' := by
  cases s with
  | col hk F => exact col_ready R hk F
  | swp hk hc => exact swp_ready R hk hc
  | spl hk hp h10 h20 h6 n1 n2 => exact spl_ready R hk hp h10 h20 h6 n1 n2
  | mov hk => exact R.mov
  | ana hw hr hu ho ha hv => exact ana_ready R hw hr hu ho ha hv

/-- Whatever sequence of collapses, swaps, splits, relocations and pattern splits the surface remesher makes, with whatever answers of the
tests: a required vertex stays in the mesh, at its place, required; a required edge stays an edge with the same two ends, required; a
required triangle stays the same triangle; and the tags stay as the next step needs them. -/
theorem C97_required {S S' : St K} (R : Ready S) (h : ReflTransGen Step S S') : Ready S' ∧ Keeps S S' := by
  induction h with
  | refl => exact ⟨R, .refl S⟩
  | tail _ s ih =>
    obtain ⟨r, k⟩ := s.ready ih.1
    exact ⟨r, ih.2.trans k⟩

/-- On a manifold mesh the premise `Even` of the pattern splitting follows from what all steps keep. -/
theorem C97_even {S : St K} (R : Ready S) (hi : Surf.Inj S.M)
    (hf : ∀ h h' : HE, S.M.live h.1 → S.M.live h'.1 → S.M.org h' = S.M.dst h → S.M.dst h' = S.M.org h → S.M.adj h = some h') :
    Even S.M := by
  rintro h h' l l' (⟨o, d⟩ | ⟨o, d⟩) r
  · exact R.sym h h' l (hf h h' l l' o d) r
  · rw [hi h' h l' l o d]; exact r

/-! ### What the analysis gives -/

/-- The same two ends. -/
def SameEnds (M : Mesh) (h h' : HE) : Prop := M.org h' = M.dst h ∧ M.dst h' = M.org h ∨ M.org h' = M.org h ∧ M.dst h' = M.dst h

theorem collect_req (M : Mesh) (L : List (Nat × Fin 3)) (x y : Nat) :
    req (L.foldl (fun h s => if (M.tri s.1).v 0 = 0 then h else if (M.tri s.1).tag s.2 = 0 then h
      else orPut h ((M.tri s.1).v (s.2 + 1)) ((M.tri s.1).v (s.2 + 2)) ((M.tri s.1).tag s.2)) (fun _ _ => 0) x y) = true ↔
    ∃ s ∈ L, M.live s.1 ∧ x = min (M.org s) (M.dst s) ∧ y = max (M.org s) (M.dst s) ∧ req ((M.tri s.1).tag s.2) = true := by
  induction L using List.reverseRecOn with
  | nil => simp [req_zero]
  | append_singleton L s ih =>
    rw [List.foldl_append]
    simp only [List.foldl_cons, List.foldl_nil, List.mem_append, List.mem_cons, List.not_mem_nil, or_false]
    have split : (∃ s', (s' ∈ L ∨ s' = s) ∧ M.live s'.1 ∧ x = min (M.org s') (M.dst s') ∧ y = max (M.org s') (M.dst s') ∧
        req ((M.tri s'.1).tag s'.2) = true) ↔ (∃ s' ∈ L, M.live s'.1 ∧ x = min (M.org s') (M.dst s') ∧ y = max (M.org s') (M.dst s') ∧
        req ((M.tri s'.1).tag s'.2) = true) ∨ (M.live s.1 ∧ x = min (M.org s) (M.dst s) ∧ y = max (M.org s) (M.dst s) ∧
        req ((M.tri s.1).tag s.2) = true) := by
      constructor
      · rintro ⟨s', m | rfl, q⟩
        · exact .inl ⟨s', m, q⟩
        · exact .inr q
      · rintro (⟨s', m, q⟩ | q)
        · exact ⟨s', .inl m, q⟩
        · exact ⟨s, .inr rfl, q⟩
    rw [split, ← ih]
    by_cases h0 : (M.tri s.1).v 0 = 0
    · rw [if_pos h0]
      exact ⟨.inl, fun h => h.elim id fun q => absurd h0 q.1⟩
    rw [if_neg h0]
    by_cases h1 : (M.tri s.1).tag s.2 = 0
    · rw [if_pos h1, h1, req_zero]
      simp
    rw [if_neg h1]
    unfold orPut
    by_cases h2 : x = min ((M.tri s.1).v (s.2 + 1)) ((M.tri s.1).v (s.2 + 2)) ∧ y = max ((M.tri s.1).v (s.2 + 1)) ((M.tri s.1).v (s.2 + 2))
    · rw [if_pos h2, req_or, Bool.or_eq_true]
      exact or_congr_right ⟨fun r => ⟨h0, h2.1, h2.2, r⟩, fun q => q.2.2.2⟩
    · rw [if_neg h2]
      exact ⟨.inl, fun h => h.elim id fun q => absurd ⟨q.2.1, q.2.2.1⟩ h2⟩

theorem mem_sides (n : Nat) (s : Nat × Fin 3) : s ∈ sides n ↔ 1 ≤ s.1 ∧ s.1 ≤ n := by
  obtain ⟨k, i⟩ := s
  unfold sides
  simp only [List.mem_flatMap, List.mem_range'_1, List.mem_cons, Prod.mk.injEq, List.not_mem_nil, or_false]
  constructor
  · rintro ⟨a, h, ⟨rfl, -⟩ | ⟨rfl, -⟩ | ⟨rfl, -⟩⟩ <;> omega
  · intro h
    refine ⟨k, by omega, ?_⟩
    fin_cases i <;> simp

theorem spread_v (S : St K) (n k : Nat) : ((spread S n).M.tri k).v = (S.M.tri k).v ∧ ((spread S n).M.tri k).ref = (S.M.tri k).ref := by
  unfold spread
  simp only
  split <;> exact ⟨rfl, rfl⟩

theorem spread_live (S : St K) (n k : Nat) : (spread S n).M.live k ↔ S.M.live k := by
  unfold Mesh.live
  rw [(spread_v S n k).1]

/-- After `MMGS_bdryUpdate` a side is required exactly if a side with the same two ends was. -/
theorem spread_req (S : St K) {n : Nat} (hp : ∀ k, S.M.live k → k ≠ 0) (hn : ∀ k, S.M.live k → k ≤ n) (h : HE) (hl : S.M.live h.1) :
    req (((spread S n).M.tri h.1).tag h.2) = true ↔
      ∃ h', S.M.live h'.1 ∧ SameEnds S.M h h' ∧ req ((S.M.tri h'.1).tag h'.2) = true := by
  have c : ¬ ((S.M.tri h.1).v 0 = 0 ∨ h.1 < 1 ∨ n < h.1) := by
    have := hp _ hl
    have := hn _ hl
    rintro (q | q | q)
    · exact hl q
    · omega
    · omega
  unfold spread
  simp only [if_neg c]
  rw [req_or, Bool.or_eq_true]
  unfold Tab.get collect
  rw [collect_req]
  constructor
  · rintro (r | ⟨s, -, l, e1, e2, r⟩)
    · exact ⟨h, hl, .inr ⟨rfl, rfl⟩, r⟩
    · refine ⟨s, l, ?_, r⟩
      unfold SameEnds
      unfold Mesh.org Mesh.dst at *
      omega
  · rintro ⟨s, l, e, r⟩
    right
    refine ⟨s, (mem_sides n s).2 ⟨by have := hp _ l; omega, hn _ l⟩, l, ?_, ?_, r⟩
    · unfold SameEnds at e
      unfold Mesh.org Mesh.dst at *
      omega
    · unfold SameEnds at e
      unfold Mesh.org Mesh.dst at *
      omega

/-- The ends that get the mark. -/
theorem markEnds_req (M : Mesh) (L : List (Nat × Fin 3)) (t : Nat → Nat) (p : Nat) : req (L.foldl (markEnd M) t p) = true ↔
    req (t p) = true ∨ ∃ s ∈ L, M.live s.1 ∧ req ((M.tri s.1).tag s.2) = true ∧ (M.org s = p ∨ M.dst s = p) := by
  induction L generalizing t with
  | nil => simp
  | cons s L ih =>
    rw [List.foldl_cons, ih]
    have : req (markEnd M t s p) = true ↔ req (t p) = true ∨ (M.live s.1 ∧ req ((M.tri s.1).tag s.2) = true ∧ (M.org s = p ∨ M.dst s = p)) := by
      unfold markEnd
      by_cases h0 : (M.tri s.1).v 0 = 0
      · rw [if_pos h0]
        exact ⟨.inl, fun h => h.elim id fun q => absurd h0 q.1⟩
      rw [if_neg h0]
      by_cases h1 : (edg ((M.tri s.1).tag s.2) || req ((M.tri s.1).tag s.2)) = true
      · rw [if_pos h1]
        by_cases h2 : p = (M.tri s.1).v (s.2 + 1) ∨ p = (M.tri s.1).v (s.2 + 2)
        · rw [if_pos h2, req_or, Bool.or_eq_true]
          exact or_congr_right ⟨fun r => ⟨h0, r, h2.imp Eq.symm Eq.symm⟩, fun q => q.2.1⟩
        · rw [if_neg h2]
          exact ⟨.inl, fun h => h.elim id fun q => absurd (q.2.2.imp Eq.symm Eq.symm) h2⟩
      · rw [if_neg h1]
        refine ⟨.inl, fun h => h.elim id fun q => ?_⟩
        rw [q.2.1, Bool.or_true] at h1
        exact absurd rfl h1
    rw [this]
    rw [List.exists_mem_cons_iff]
    exact or_assoc

/-- After the analysis: a side is required exactly if the user required it in one of the triangles that have this edge, be they two or
more; a vertex is required exactly if the user required it or one of its edges; with this the remesher can begin, and nothing that was
required is lost. -/
theorem C97_ready {S : St K} (hV : Valid S.M) {n : Nat} (hn : ∀ k, S.M.live k → k ≤ n) {L : List (Nat × Fin 3)}
    (hL : ∀ k i, S.M.live k → (k, i) ∈ L) :
    Ready (markEnds (spread S n) L) ∧ Even (markEnds (spread S n) L).M ∧ Keeps S (markEnds (spread S n) L) ∧
    (∀ h : HE, S.M.live h.1 → (req (((markEnds (spread S n) L).M.tri h.1).tag h.2) = true ↔
      ∃ h' : HE, S.M.live h'.1 ∧ SameEnds S.M h h' ∧ req ((S.M.tri h'.1).tag h'.2) = true)) ∧
    ∀ p, req ((markEnds (spread S n) L).tag p) = true ↔ req (S.tag p) = true ∨
      ∃ h : HE, S.M.live h.1 ∧ req ((S.M.tri h.1).tag h.2) = true ∧ (S.M.org h = p ∨ S.M.dst h = p) := by
  have hp : ∀ k, S.M.live k → k ≠ 0 := fun k h => (hV.pos k h).1
  have sr := fun h hl => spread_req S hp hn h hl
  have ov : ∀ h, (spread S n).M.org h = S.M.org h ∧ (spread S n).M.dst h = S.M.dst h := by
    intro h
    unfold Mesh.org Mesh.dst
    rw [(spread_v S n h.1).1]
    exact ⟨rfl, rfl⟩
  have tg := fun p => markEnds_req (spread S n).M L (spread S n).tag p
  have even : Even (spread S n).M := by
    intro h h' l l' e r
    rw [spread_live] at l l'
    obtain ⟨g, lg, eg, rg⟩ := (sr h l).1 r
    refine (sr h' l').2 ⟨g, lg, ?_, rg⟩
    rw [(ov h).1, (ov h).2, (ov h').1, (ov h').2] at e
    unfold SameEnds at eg ⊢
    omega
  have valid : Valid (spread S n).M := by
    refine ⟨fun k hk => ?_, fun k hk i j hij => ?_, fun h h' hl e => ?_⟩
    · rw [(spread_v S n k).1]; exact hV.pos k ((spread_live S n k).1 hk)
    · rw [(spread_v S n k).1]; exact hV.distinct k ((spread_live S n k).1 hk) i j hij
    · obtain ⟨a, b, c, d⟩ := hV.link h h' ((spread_live S n _).1 hl) e
      rw [(ov h).1, (ov h).2, (ov h').1, (ov h').2]
      exact ⟨(spread_live S n _).2 a, b, c, d⟩
  have mono : ∀ h : HE, S.M.live h.1 → req ((S.M.tri h.1).tag h.2) = true → req (((spread S n).M.tri h.1).tag h.2) = true :=
    fun h l r => (sr h l).2 ⟨h, l, .inr ⟨rfl, rfl⟩, r⟩
  refine ⟨⟨valid, ?_, ?_⟩, even, ⟨?_, ?_, ?_⟩, sr, ?_⟩
  · intro h h' l e r
    obtain ⟨a, -, c, d⟩ := valid.link h h' l e
    exact even h h' l a (.inl ⟨c, d⟩) r
  · intro h l r
    have m := hL h.1 h.2 ((spread_live S n _).1 l)
    exact ⟨(tg _).2 (.inr ⟨h, m, l, r, .inl rfl⟩), (tg _).2 (.inr ⟨h, m, l, r, .inr rfl⟩)⟩
  · intro p r
    exact ⟨rfl, (tg p).2 (.inl r), fun k i hk e => ⟨k, i, (spread_live S n k).2 hk, by
      show ((spread S n).M.tri k).v i = p
      rw [(spread_v S n k).1]; exact e⟩⟩
  · intro h l r
    exact ⟨h, (spread_live S n _).2 l, mono h l r, (ov h).1, (ov h).2⟩
  · intro k l r
    exact ⟨(spread_live S n _).2 l, (spread_v S n k).1, (spread_v S n k).2, fun i => mono (k, i) l (r i)⟩
  · intro p
    refine (tg p).trans ?_
    constructor
    · rintro (r | ⟨s, -, l, r, e⟩)
      · exact .inl r
      · rw [spread_live] at l
        obtain ⟨g, lg, eg, rg⟩ := (sr s l).1 r
        rw [(ov s).1, (ov s).2] at e
        refine .inr ⟨g, lg, rg, ?_⟩
        unfold SameEnds at eg
        omega
    · rintro (r | ⟨h, l, r, e⟩)
      · exact .inl r
      · refine .inr ⟨h, hL h.1 h.2 l, (spread_live S n _).2 l, mono h l r, ?_⟩
        rw [(ov h).1, (ov h).2]
        exact e

/-- From the tags that the user has given: what was required before the analysis is there after any sequence of steps. -/
theorem C97_user {S S' : St K} (hV : Valid S.M) {n : Nat} (hn : ∀ k, S.M.live k → k ≤ n) {L : List (Nat × Fin 3)}
    (hL : ∀ k i, S.M.live k → (k, i) ∈ L) (hs : ReflTransGen Step (markEnds (spread S n) L) S') :
    (∀ p, req (S.tag p) = true → S'.pos p = S.pos p ∧
      ∀ k i, S.M.live k → (S.M.tri k).v i = p → ∃ k' i', S'.M.live k' ∧ (S'.M.tri k').v i' = p) ∧
    (∀ k i, S.M.live k → req ((S.M.tri k).tag i) = true →
      (∃ k' i', S'.M.live k' ∧ (S'.M.tri k').v (i' + 1) = (S.M.tri k).v (i + 1) ∧ (S'.M.tri k').v (i' + 2) = (S.M.tri k).v (i + 2)) ∧
      S'.pos ((S.M.tri k).v (i + 1)) = S.pos ((S.M.tri k).v (i + 1)) ∧ S'.pos ((S.M.tri k).v (i + 2)) = S.pos ((S.M.tri k).v (i + 2))) ∧
    ∀ k, S.M.live k → (∀ i, req ((S.M.tri k).tag i) = true) →
      S'.M.live k ∧ (S'.M.tri k).v = (S.M.tri k).v ∧ (S'.M.tri k).ref = (S.M.tri k).ref ∧
      ∀ i, S'.pos ((S.M.tri k).v i) = S.pos ((S.M.tri k).v i) := by
  obtain ⟨R, -, Q, -, pt⟩ := C97_ready hV hn hL
  obtain ⟨-, Q'⟩ := C97_required R hs
  have P : ∀ p, req ((markEnds (spread S n) L).tag p) = true → S'.pos p = S.pos p := fun p r => (Q'.vertex p r).1
  have E := Q.trans Q'
  refine ⟨fun p r => ?_, fun k i l r => ?_, fun k l r => ?_⟩
  · obtain ⟨a, -, b⟩ := E.vertex p r
    exact ⟨a, b⟩
  · obtain ⟨h', l', -, o, d⟩ := E.edge (k, i) l r
    exact ⟨⟨h'.1, h'.2, l', o, d⟩, P _ ((pt _).2 (.inr ⟨(k, i), l, r, .inl rfl⟩)), P _ ((pt _).2 (.inr ⟨(k, i), l, r, .inr rfl⟩))⟩
  · obtain ⟨a, b, c, -⟩ := E.tria k l r
    refine ⟨a, b, c, fun i => P _ ((pt _).2 (.inr ⟨(k, i + 2), l, r (i + 2), .inl ?_⟩))⟩
    show (S.M.tri k).v (i + 2 + 1) = _
    rw [(f3 i).2.2.2.2.2.1]

/-! ### A closed surface -/

/-- The octahedron; the user requires triangle 5. -/
def octU : St (Int × Int) where
  M := Surf.mk [(1, 2, 3), (1, 3, 4), (1, 4, 5), (1, 5, 2), (6, 3, 2), (6, 4, 3), (6, 5, 4), (6, 2, 5)]
    (fun k _ => if k = 5 then 4 else 0)
  pos := fun p => (p, p)
  tag := fun _ => 0

/-- The octahedron after the analysis. -/
def octR : St (Int × Int) := markEnds (spread octU 8) (sides 8)

theorem octU_out (k : Nat) (h : octU.M.live k) : k < 9 := Surf.mk_out h
theorem octU_valid : Valid octU.M := Surf.valid_of octU_out (by decide +kernel)
theorem octU_sides (k : Nat) (i : Fin 3) (h : octU.M.live k) : (k, i) ∈ sides 8 := by
  have := octU_out k h
  have := (octU_valid.pos k h).1
  exact (mem_sides 8 _).2 (by simp only; omega)

/-- Hypotheses of `C97_ready` and `C97_user`; the edge 2-3 gets the mark in triangle 1 too. -/
example : Valid octU.M ∧ (∀ k, octU.M.live k → k ≤ 8) ∧ (∀ k i, octU.M.live k → (k, i) ∈ sides 8) ∧
    req ((octU.M.tri 1).tag 0) = false ∧ req ((octR.M.tri 1).tag 0) = true ∧ req (octR.tag 2) = true ∧ req (octR.tag 1) = false :=
  ⟨octU_valid, fun k h => by have := octU_out k h; omega, octU_sides, by decide +kernel⟩

theorem octR_ready : Ready octR ∧ Even octR.M := by
  obtain ⟨R, E, -⟩ := C97_ready octU_valid (n := 8) (fun k h => by have := octU_out k h; omega) octU_sides
  exact ⟨R, E⟩

theorem octR_out (k : Nat) (h : octR.M.live k) : k < 9 := octU_out k ((spread_live octU 8 k).1 h)

theorem octR_fine : Fine octR.M (1, 0) := by
  have hl : octR.M.live 1 := by unfold Mesh.live; decide +kernel
  have e : boulet octR.M 100 false (1, 0) = some ([(1, 0), (2, 0), (3, 0), (4, 0)], false) := by decide +kernel
  refine ⟨Surf.inj_of octR_out (by decide +kernel), Surf.one_of octR_out octR_ready.1.valid hl e (by decide +kernel), ?_, ?_⟩
  · intro h
    exact absurd h (by decide +kernel)
  · intro _ x hx i hi
    have := ((C17_ball octR_ready.1.valid hl e).2.2.1 x).2 hx
    have key : ∀ x ∈ [((1, 0) : HE), (2, 0), (3, 0), (4, 0)], ∀ i, i ≠ x.2 → octR.M.adj (x.1, i) ≠ none := by decide +kernel
    exact key x this i hi

/-- Hypotheses of `C97_even`. -/
example : Ready octR ∧ Surf.Inj octR.M ∧ ∀ h h' : HE, octR.M.live h.1 → octR.M.live h'.1 → octR.M.org h' = octR.M.dst h →
    octR.M.dst h' = octR.M.org h → octR.M.adj h = some h' := by
  refine ⟨octR_ready.1, octR_fine.inj, ?_⟩
  have key : ∀ k < 9, ∀ k' < 9, ∀ i j, (octR.M.tri k).v 0 = 0 ∨ octR.M.org (k', j) ≠ octR.M.dst (k, i) ∨
      octR.M.dst (k', j) ≠ octR.M.org (k, i) ∨ octR.M.adj (k, i) = some (k', j) := by decide +kernel
  rintro ⟨k, i⟩ ⟨k', j⟩ l l' a b
  rcases key k (octR_out k l) k' (octR_out k' l') i j with q | q | q | q
  · exact absurd q l
  · exact absurd a q
  · exact absurd b q
  · exact q

/-- A collapse of vertex 1 onto vertex 2 removes triangle 1 that has the required edge; the edge goes to triangle 2. -/
example : ∃ S', Step octR S' ∧ ¬ S'.M.live 1 ∧ S'.M.live 2 ∧ S'.M.org (2, 2) = 2 ∧ S'.M.dst (2, 2) = 3 ∧
    req ((S'.M.tri 2).tag 2) = true ∧ req ((octR.M.tri 2).tag 2) = false ∧ (S'.M.tri 5).v = (octR.M.tri 5).v := by
  refine ⟨_, .col (k := 1) (i := 2) (short := true) (geo := fun _ => true) (lmax := 100) (n := 100)
    (by unfold Mesh.live; decide +kernel) octR_fine, ?_⟩
  unfold Mesh.live
  decide +kernel

/-- A swap, a split and a relocation. -/
example : (∃ S', Step octR S' ∧ (S'.M.tri 1).v ≠ (octR.M.tri 1).v) ∧ (∃ S', Step octR S' ∧ S'.M.live 9 ∧ S'.M.live 10) ∧
    ∃ S', Step octR S' ∧ S'.pos 1 ≠ octR.pos 1 := by
  refine ⟨⟨_, .swp (k := 1) (i := 1) (chk := true) (by unfold Mesh.live; decide +kernel) ?_, by decide +kernel⟩,
    ⟨_, .spl (k := 2) (i := 1) (ip := 7) (iel := 9) (kel := 10) (o := (1, 0)) (by unfold Mesh.live; decide +kernel) ?_ (by decide) (by decide)
      (by decide) (by unfold Mesh.live; decide +kernel) (by unfold Mesh.live; decide +kernel), by unfold Mesh.live; decide +kernel⟩,
    ⟨_, .mov (k := 1) (i := 0) (o := some (1, 0)) (by unfold Mesh.live; decide +kernel), by decide +kernel⟩⟩
  · intro _ o e
    have : o = (2, 2) := by
      have h : octR.M.adj (1, 1) = some (2, 2) := by decide +kernel
      rw [h] at e
      exact (Option.some.inj e).symm
    subst this
    decide +kernel
  · refine ⟨by decide, by decide +kernel, fun k hk => ?_⟩
    have key : ∀ k < 9, ∀ j, (octR.M.tri k).v j ≠ 7 := by decide +kernel
    exact key k (octR_out k hk)

/-- Pattern splitting of the octahedron: the edges 1-4 and 2-3 are too long, the second is required and gets no point. -/
def octWs : List (Want (Int × Int)) := [⟨1, 0, 8, (0, 5)⟩, ⟨2, 1, 7, (0, 1)⟩]
def octOwn : Nat → Option (Nat × Nat) := fun x => if x = 9 then some (2, 1) else if x = 10 then some (3, 1) else none

/-- Neighbours found by the edges, as `MMGS_hashTria` does after the splitting. -/
def octAdj : HE → Option HE := fun h =>
  let T := cutAll Surf.splitAny octR.M (marks octR.M (drop (fun _ => false) (wants octR octWs)).1) octOwn
  (sides 10).find? (fun h' => h.1 ≠ 0 && h.1 ≤ 10 && (T h'.1).v (h'.2 + 1) == (T h.1).v (h.2 + 2) && (T h'.1).v (h'.2 + 2) == (T h.1).v (h.2 + 1))

example : ∃ S', Step octR S' ∧ S'.M.live 9 ∧ S'.M.live 10 ∧ (S'.M.tri 1).v = (octR.M.tri 1).v ∧ (S'.M.tri 5).v = (octR.M.tri 5).v ∧
    (S'.M.tri 2).v ≠ (octR.M.tri 2).v ∧ S'.pos 7 = (0, 1) := by
  have lenk : ∀ k < 9, (Surf.splitAny (octR.M.tri k) (marks octR.M (drop (fun _ => false) (wants octR octWs)).1 k)).length =
      if k = 2 ∨ k = 3 then 2 else 1 := by decide +kernel
  refine ⟨_, .ana (ws := octWs) (rm := fun _ => false) (own := octOwn) (adj := octAdj) ?_ (by simp) octR_ready.2 ?_ ?_ ?_, ?_⟩
  · have key : ∀ k < 9, ∀ j, (octR.M.tri k).v j ≠ 7 ∧ (octR.M.tri k).v j ≠ 8 := by decide +kernel
    intro w hw
    simp only [octWs, List.mem_cons, List.not_mem_nil, or_false] at hw
    rcases hw with rfl | rfl
    · exact ⟨by unfold Mesh.live; decide +kernel, by decide, by decide +kernel, fun k hk j => (key k (octR_out k hk) j).2⟩
    · exact ⟨by unfold Mesh.live; decide +kernel, by decide, by decide +kernel, fun k hk j => (key k (octR_out k hk) j).1⟩
  · intro x k j e
    unfold octOwn at e
    split at e
    · subst_vars
      simp only [Option.some.injEq, Prod.mk.injEq] at e
      obtain ⟨rfl, rfl⟩ := e
      unfold Mesh.live
      decide +kernel
    · split at e
      · subst_vars
        simp only [Option.some.injEq, Prod.mk.injEq] at e
        obtain ⟨rfl, rfl⟩ := e
        unfold Mesh.live
        decide +kernel
      · cases e
  · intro k j hk h0 h1
    rw [lenk k (octR_out k hk)] at h1
    split at h1
    · rename_i c
      have : j = 1 := by omega
      subst this
      rcases c with rfl | rfl
      · exact ⟨9, rfl⟩
      · exact ⟨10, rfl⟩
    · omega
  · refine Surf.valid_of (N := 11) (fun k hk => ?_) (by decide +kernel)
    by_contra n
    apply hk
    have n1 : octOwn k = none := by unfold octOwn; rw [if_neg (by omega), if_neg (by omega)]
    have n2 : (octR.M.tri k).v 0 = 0 := by
      by_contra c
      have := octR_out k c
      omega
    show (cutAll _ _ _ _ k).v 0 = 0
    unfold cutAll
    rw [n1]
    simp only [if_pos n2]
    exact n2
  · unfold Mesh.live
    decide +kernel

/-- Three triangles at the edge 2-3.  Two are neighbours and have the edge required, the third has not. -/
def book : St Nat where
  M := ⟨fun k => if k = 1 then ⟨![1, 2, 3], ![4, 0, 0], fun _ => 0, 0⟩ else if k = 2 then ⟨![4, 3, 2], ![4, 0, 0], fun _ => 0, 0⟩
      else if k = 3 then ⟨![5, 2, 3], ![0, 0, 0], fun _ => 0, 0⟩ else ⟨fun _ => 0, fun _ => 0, fun _ => 0, 0⟩,
    fun h => if h = (1, 0) then some (2, 0) else if h = (2, 0) then some (1, 0) else none⟩
  pos := fun p => p
  tag := fun p => if p = 2 ∨ p = 3 then 4 else 0

def bookOwn : Nat → Option (Nat × Nat) := fun x => if x = 4 then some (1, 1) else if x = 5 then some (2, 1) else if x = 6 then some (3, 1) else none

theorem book_out (k : Nat) (h : book.M.live k) : k < 4 := by
  by_contra n
  apply h
  have h1 : k ≠ 1 := by omega
  have h2 : k ≠ 2 := by omega
  have h3 : k ≠ 3 := by omega
  simp [book, h1, h2, h3]

/-- Why `MMGS_bdryUpdate` has to put the mark on all triangles of an edge and not only on neighbours: with the mark missing in a third
triangle the required edge is cut, in all three. -/
theorem C97_uneven_observed : Ready book ∧ ¬ Even book.M ∧
    (∃ h : HE, book.M.live h.1 ∧ req ((book.M.tri h.1).tag h.2) = true ∧ book.M.org h = 2 ∧ book.M.dst h = 3) ∧
    ∀ h : HE, (anaBody book [⟨3, 0, 6, 9⟩] (fun _ => false) bookOwn (fun _ => none)).M.live h.1 →
      ¬ ((anaBody book [⟨3, 0, 6, 9⟩] (fun _ => false) bookOwn (fun _ => none)).M.org h = 2 ∧
        (anaBody book [⟨3, 0, 6, 9⟩] (fun _ => false) bookOwn (fun _ => none)).M.dst h = 3) := by
  refine ⟨⟨Surf.valid_of book_out (by decide), ?_, ?_⟩, ?_, ⟨(1, 0), by decide, by decide⟩, ?_⟩
  · intro h h' _ e
    simp only [book] at e
    split at e
    · subst_vars; cases e; decide
    · split at e
      · subst_vars; cases e; decide
      · cases e
  · rintro ⟨k, i⟩ l r
    have key : ∀ k < 4, ∀ i, req ((book.M.tri k).tag i) = true → req (book.tag (book.M.org (k, i))) = true ∧
      req (book.tag (book.M.dst (k, i))) = true := by decide
    exact key k (book_out k l) i r
  · intro E
    exact absurd (E (1, 0) (3, 0) (by decide) (by decide) (.inr (by decide)) (by decide)) (by decide)
  · rintro ⟨k, i⟩ l
    have hk : k < 7 := by
      by_contra n
      apply l
      have n1 : bookOwn k = none := by unfold bookOwn; rw [if_neg (by omega), if_neg (by omega), if_neg (by omega)]
      have n2 : (book.M.tri k).v 0 = 0 := by
        by_contra c
        have := book_out k c
        omega
      show (cutAll _ _ _ _ k).v 0 = 0
      unfold cutAll
      rw [n1]
      simp only [if_pos n2]
      exact n2
    have key : ∀ k < 7, ∀ i, ¬ ((anaBody book [⟨3, 0, 6, 9⟩] (fun _ => false) bookOwn (fun _ => none)).M.org (k, i) = 2 ∧
        (anaBody book [⟨3, 0, 6, 9⟩] (fun _ => false) bookOwn (fun _ => none)).M.dst (k, i) = 3) := by decide +kernel
    exact key k hk i

end Mmg.ReqS
