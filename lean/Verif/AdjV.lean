import Verif.AdjVModel
import Verif.BallProps

/-!
# C105: the neighbours of a vertex, asked by the user
-/

namespace Mmg.Tri2

open Relation

/-- The vertex after the corner. -/
def Mesh.nx (M : Mesh) (x : HE) : Nat := (M.tri x.1).v (x.2 + 1)

theorem i21 (i : Fin 3) : i + 2 + 1 = i := by revert i; decide
theorem i12 (i : Fin 3) : i + 1 + 2 = i := by revert i; decide
theorem i22 (i : Fin 3) : i + 2 + 2 = i + 1 := by revert i; decide
theorem i11 (i : Fin 3) : i + 1 + 1 = i + 2 := by revert i; decide
theorem other (i j : Fin 3) (h : i ≠ j) : i = j + 1 ∨ i = j + 2 := by revert i j; decide
theorem i2inj (i j : Fin 3) (h : i + 2 = j + 2) : i = j := by revert i j; decide
theorem ne1 (i : Fin 3) : i + 1 ≠ i := by revert i; decide
theorem ne2 (i : Fin 3) : i + 2 ≠ i := by revert i; decide

theorem adjFwd_eq (M : Mesh) (s : Nat) : ∀ n c, adjFwd M s n c = (fwd M s n c).map fun r => (r.1.map M.nx, r.1.getLast?.getD c, r.2) := by
  intro n
  induction n with
  | zero => intro c; rfl
  | succ n ih =>
    intro c
    unfold adjFwd fwd Mesh.rot
    cases e : M.adj (c.1, c.2 + 1) with
    | none => rfl
    | some x =>
      obtain ⟨k, i⟩ := x
      simp only [Option.map_some]
      by_cases h : k = s
      · simp only [if_pos h]; rfl
      · simp only [if_neg h]
        rw [ih]
        cases f : fwd M s n (k, i + 1) with
        | none => rfl
        | some r =>
          obtain ⟨l, b⟩ := r
          have hl : l ≠ [] := by
            cases n with
            | zero => simp [fwd] at f
            | succ n =>
              unfold fwd at f
              split at f
              · cases f; simp
              · split at f
                · cases f; simp
                · simp only [Option.map_eq_some_iff] at f
                  obtain ⟨a, _, e⟩ := f
                  cases e; simp
          cases l with
          | nil => exact absurd rfl hl
          | cons y l =>
            simp only [Option.map_some, List.map_cons, List.getLast?_cons_cons]
            congr 3

theorem adjBwd_eq (M : Mesh) : ∀ n c, adjBwd M n c = (bwd M n c).map fun l => l.map M.nx := by
  intro n
  induction n with
  | zero =>
    intro c
    unfold adjBwd bwd Mesh.rotb
    cases e : M.adj (c.1, c.2 + 2) <;> rfl
  | succ n ih =>
    intro c
    unfold adjBwd bwd Mesh.rotb
    cases e : M.adj (c.1, c.2 + 2) with
    | none => rfl
    | some x =>
      simp only [Option.map_some]
      rw [ih]
      cases bwd M n (x.1, x.2 + 2) with
      | none => rfl
      | some l => simp [Mesh.nx, i21]

theorem chain_end {α : Type} {f : α → Option α} {l : List α} (hc : l.IsChain (fun x y => f x = some y)) {x : α} (hx : x ∈ l) (hn : f x = none) :
    l.getLast? = some x := by
  induction l with
  | nil => cases hx
  | cons a l ih =>
    cases l with
    | nil => simp at hx; simp [hx]
    | cons b l =>
      rw [List.isChain_cons_cons] at hc
      rw [List.getLast?_cons_cons]
      rcases List.mem_cons.1 hx with rfl | hx
      · rw [hc.1] at hn; cases hn
      · exact ih hc.2 hx

theorem bwd_mono (M : Mesh) : ∀ n c l, bwd M n c = some l → bwd M (n + 1) c = some l := by
  intro n
  induction n with
  | zero =>
    intro c l e
    unfold bwd at e ⊢
    cases h : M.rotb c with
    | none => simpa [h] using e
    | some x => simp [h] at e
  | succ n ih =>
    intro c l e
    unfold bwd at e ⊢
    cases h : M.rotb c with
    | none => simpa [h] using e
    | some x =>
      simp only [h, Option.map_eq_some_iff] at e ⊢
      obtain ⟨a, e1, e2⟩ := e
      exact ⟨a, ih _ _ e1, e2⟩

open Classical in
/-- The corners visited. -/
theorem adjaVert_spec {M : Mesh} (h : Valid M) {c : HE} (hk : M.live c.1) {lmax : Nat} {r : List Nat} (e : adjaVert M lmax c = some r) :
    ∃ L : List HE, L.Nodup ∧ (∀ x, x ∈ L ↔ ReflTransGen M.Fan c x) ∧ (∀ x ∈ L, M.live x.1 ∧ M.at x = M.at c) ∧ r.length ≤ lmax ∧
      ((r = L.map M.nx ∧ ∀ x ∈ L, rotL M x ≠ none) ∨
        ∃ z ∈ L, rotL M z = none ∧ r.Perm ((M.tri z.1).v (z.2 + 2) :: L.map M.nx) ∧ ∀ x ∈ L, rotL M x = none → x = z) := by
  unfold adjaVert at e
  rw [adjFwd_eq] at e
  cases ef : fwd M c.1 lmax c with
  | none => rw [ef] at e; cases e
  | some p =>
    obtain ⟨l, b⟩ := p
    rw [ef] at e
    obtain ⟨⟨t, hl, i1⟩, i2, i3, i4, i5⟩ := fwd_spec h c.1 _ c hk _ _ ef
    cases b with
    | true =>
      simp only [Option.map_some, Option.some.injEq] at e
      have eb : boulet M (lmax + 1) false c = some (l, false) := by
        unfold boulet; rw [Nat.add_sub_cancel, ef]
      obtain ⟨_, g2, g3, g4, g5, _⟩ := C17_ball h hk eb
      refine ⟨l, g2.of_map _, g3, g4, ?_, .inl ⟨e.symm, ?_⟩⟩
      · rw [← e, List.length_map]; exact i5
      · intro x hx hn
        have hx1 := chain_end i2 hx hn
        have := i4 x hx1
        simp only [if_true] at this
        obtain ⟨y, hy, _⟩ := this
        rw [hn] at hy; cases hy
    | false =>
      simp only [Option.map_some, List.length_map] at e
      split at e
      · cases e
      · rename_i hlen
        rw [adjBwd_eq] at e
        simp only [Option.map_map, Option.map_eq_some_iff] at e
        obtain ⟨l2, e2, e3⟩ := e
        simp only [Function.comp] at e3
        have eb : boulet M (lmax + 1) false c = some (l ++ l2, true) := by
          unfold boulet; rw [Nat.add_sub_cancel, ef]
          have := bwd_mono _ _ _ _ e2
          rw [show lmax - (l.length + 1) + 1 = lmax - l.length by omega] at this
          simp [this]
        obtain ⟨_, g2, g3, g4, g5, _⟩ := C17_ball h hk eb
        obtain ⟨b1, b2, b3, b4⟩ := bwd_spec h _ c hk _ e2
        have hne : l ≠ [] := by rw [hl]; simp
        have hz := List.getLast?_eq_some_getLast hne
        have hzn := i4 _ hz
        simp only [Bool.false_eq_true, if_false] at hzn
        rw [hz, Option.getD_some] at e3
        refine ⟨l ++ l2, g2.of_map _, g3, g4, ?_, .inr ⟨l.getLast hne, ?_, hzn, ?_, ?_⟩⟩
        · rw [← e3]
          simp only [List.length_append, List.length_cons, List.length_map]
          omega
        · exact List.mem_append_left _ (List.getLast_mem hne)
        · rw [← e3, List.map_append]
          exact List.perm_middle
        · intro x hx hn
          have inl : x ∈ l → x = l.getLast hne := by
            intro hx
            have := chain_end i2 hx hn
            rw [hz] at this
            exact (Option.some.inj this).symm
          rcases List.mem_append.1 hx with hx | hx
          · exact inl hx
          · have := chain_end b1 (List.mem_append_left _ (List.mem_reverse.2 hx)) hn
            simp at this
            subst this
            exact inl (by rw [hl]; simp)

theorem rot_nx {M : Mesh} (h : Valid M) {x y : HE} (hk : M.live x.1) (e : M.rot x = some y) : M.nx y = (M.tri x.1).v (x.2 + 2) := by
  obtain ⟨h1, h2, h3, h4⟩ := rot_spec h hk e
  obtain ⟨_, _, _, l4⟩ := h.link (x.1, x.2 + 1) (y.1, y.2 + 2) hk h4
  simpa only [Mesh.nx, Mesh.org, Mesh.dst, i22, i11] using l4

/-- C105: when an answer is given, it lists exactly the vertices joined to the vertex by an edge of the triangles around it, with an open or
closed fan, and it fits in the table of the caller. -/
theorem C105_neighbours {M : Mesh} (h : Valid M) {c : HE} (hk : M.live c.1) {lmax : Nat} {r : List Nat} (e : adjaVert M lmax c = some r) :
    (∀ w, w ∈ r ↔ M.Neighbour c w) ∧ r.length ≤ lmax := by
  classical
  obtain ⟨L, _, g2, g3, g4, g5⟩ := adjaVert_spec h hk e
  refine ⟨?_, g4⟩
  have nx : ∀ x ∈ L, ∀ y, rotL M x = some y → y ∈ L ∧ M.nx y = (M.tri x.1).v (x.2 + 2) := by
    intro x hx y hy
    refine ⟨(g2 y).2 (((g2 x).1 hx).tail ((fan_iff h (g3 x hx).1).2 (.inl hy))), ?_⟩
    simp only [rotL, (g3 x hx).1, if_true] at hy
    exact rot_nx h (g3 x hx).1 hy
  intro w
  rcases g5 with ⟨rfl, g6⟩ | ⟨z, hz, g6, g7, g8⟩
  · constructor
    · intro hw
      obtain ⟨x, hx, rfl⟩ := List.mem_map.1 hw
      exact ⟨x, (g2 x).1 hx, x.2 + 1, ne1 _, rfl⟩
    · rintro ⟨x, hx, i, hi, rfl⟩
      have hx := (g2 x).2 hx
      rcases other _ _ hi with rfl | rfl
      · exact List.mem_map.2 ⟨x, hx, rfl⟩
      · obtain ⟨y, hy⟩ := Option.ne_none_iff_exists'.1 (g6 x hx)
        obtain ⟨a, b⟩ := nx x hx y hy
        exact List.mem_map.2 ⟨y, a, b⟩
  · rw [g7.mem_iff, List.mem_cons]
    constructor
    · rintro (rfl | hw)
      · exact ⟨z, (g2 z).1 hz, z.2 + 2, ne2 _, rfl⟩
      · obtain ⟨x, hx, rfl⟩ := List.mem_map.1 hw
        exact ⟨x, (g2 x).1 hx, x.2 + 1, ne1 _, rfl⟩
    · rintro ⟨x, hx, i, hi, rfl⟩
      have hx := (g2 x).2 hx
      rcases other _ _ hi with rfl | rfl
      · exact .inr (List.mem_map.2 ⟨x, hx, rfl⟩)
      · cases hr : rotL M x with
        | none => left; rw [g8 x hx hr]
        | some y =>
          obtain ⟨a, b⟩ := nx x hx y hr
          exact .inr (List.mem_map.2 ⟨y, a, b⟩)

theorem nx_nodup {M : Mesh} (S : Simple M) {p : Nat} {L : List HE} (hn : L.Nodup) (hl : ∀ x ∈ L, M.live x.1 ∧ M.at x = p) : (L.map M.nx).Nodup := by
  apply hn.map_on
  intro x hx y hy e
  have := S.uniq (x.1, x.2 + 2) (y.1, y.2 + 2) (hl x hx).1 (hl y hy).1
    (by simpa [Mesh.org, i21, Mesh.at] using (hl x hx).2.trans (hl y hy).2.symm) (by simpa [Mesh.dst, i22, Mesh.nx] using e)
  simp only [Prod.mk.injEq] at this
  exact Prod.ext this.1 (i2inj _ _ this.2)

open Classical in
theorem last_new {M : Mesh} (S : Simple M) {p : Nat} {x z : HE} (hx : M.live x.1 ∧ M.at x = p) (hz : M.live z.1 ∧ M.at z = p) (hn : rotL M z = none) :
    (M.tri z.1).v (z.2 + 2) ≠ M.nx x := by
  intro e
  have := S.full (z.1, z.2 + 1) (x.1, x.2 + 2) hz.1 hx.1 (by simpa [Mesh.org, Mesh.dst, i11, i22, Mesh.nx] using e)
    (by simpa [Mesh.org, Mesh.dst, i12, i21, Mesh.at] using hz.2.trans hx.2.symm)
  simp [rotL, hz.1, Mesh.rot, this] at hn

/-- C105: in a mesh whose directed edges belong to one triangle each, no neighbour is listed twice. -/
theorem C105_once {M : Mesh} (h : Valid M) (S : Simple M) {c : HE} (hk : M.live c.1) {lmax : Nat} {r : List Nat} (e : adjaVert M lmax c = some r) :
    r.Nodup := by
  classical
  obtain ⟨L, g1, g2, g3, g4, g5⟩ := adjaVert_spec h hk e
  rcases g5 with ⟨rfl, _⟩ | ⟨z, hz, g6, g7, _⟩
  · exact nx_nodup S g1 g3
  · rw [g7.nodup_iff, List.nodup_cons]
    refine ⟨?_, nx_nodup S g1 g3⟩
    intro hm
    obtain ⟨x, hx, e⟩ := List.mem_map.1 hm
    exact last_new S (g3 x hx) (g3 z hz) g6 e.symm

/-- C105: 0 is answered only when the vertex has more neighbours than the table can hold. -/
theorem C105_failure {M : Mesh} (h : Valid M) (S : Simple M) {c : HE} (hk : M.live c.1) {lmax : Nat} (e : adjaVert M lmax c = none) :
    ∃ W : List Nat, W.Nodup ∧ lmax < W.length ∧ ∀ w ∈ W, M.Neighbour c w := by
  classical
  have key : ∀ L : List HE, ∀ z ∈ L, L.Nodup → (∀ x ∈ L, M.live x.1 ∧ M.at x = M.at c) → (∀ x ∈ L, ReflTransGen M.Fan c x) → rotL M z = none → lmax ≤ L.length →
      ∃ W : List Nat, W.Nodup ∧ lmax < W.length ∧ ∀ w ∈ W, M.Neighbour c w := by
    intro L z hz g1 g3 g2 hn hlen
    refine ⟨(M.tri z.1).v (z.2 + 2) :: L.map M.nx, ?_, by simp; omega, ?_⟩
    · rw [List.nodup_cons]
      refine ⟨?_, nx_nodup S g1 g3⟩
      intro hm
      obtain ⟨x, hx, e⟩ := List.mem_map.1 hm
      exact last_new S (g3 x hx) (g3 z hz) hn e.symm
    · intro w hw
      rcases List.mem_cons.1 hw with rfl | hw
      · exact ⟨z, g2 z hz, z.2 + 2, ne2 _, rfl⟩
      · obtain ⟨x, hx, rfl⟩ := List.mem_map.1 hw
        exact ⟨x, g2 x hx, x.2 + 1, ne1 _, rfl⟩
  unfold adjaVert at e
  rw [adjFwd_eq] at e
  cases ef : fwd M c.1 lmax c with
  | none =>
    have eb : boulet M (lmax + 1) false c = none := by
      unfold boulet; rw [Nat.add_sub_cancel, ef]
    obtain ⟨l, h1, h2, h3⟩ := C17_ball_failure h hk (by omega) eb
    refine ⟨l.map M.nx, nx_nodup S (h1.of_map _) (p := M.at c) ?_, by rw [List.length_map]; omega, ?_⟩
    · intro x hx
      refine ⟨fan_live h hk (h3 x hx), ?_⟩
      have := h3 x hx
      clear hx
      induction this with
      | refl => rfl
      | tail _ hf ih => exact hf.1.trans ih
    · intro w hw
      obtain ⟨x, hx, rfl⟩ := List.mem_map.1 hw
      exact ⟨x, h3 x hx, x.2 + 1, ne1 _, rfl⟩
  | some p =>
    obtain ⟨l, b⟩ := p
    rw [ef] at e
    obtain ⟨⟨t, hl, i1⟩, i2, i3, i4, i5⟩ := fwd_spec h c.1 _ c hk _ _ ef
    have hne : l ≠ [] := by rw [hl]; simp
    have hz := List.getLast?_eq_some_getLast hne
    cases b with
    | true => simp at e
    | false =>
      have hzn := i4 _ hz
      simp only [Bool.false_eq_true, if_false] at hzn
      simp only [Option.map_some, List.length_map] at e
      have nd : l.Nodup := chain_nodup_last i2 (fun x hx => by rw [hz] at hx; cases hx; exact hzn)
      have re : ∀ x ∈ l, ReflTransGen M.Fan c x := by
        subst hl
        exact chain_reach h (fun x hx => (i3 x hx).1) i2
      split at e
      · rename_i hlen
        exact key l _ (List.getLast_mem hne) nd i3 re hzn (by omega)
      · rename_i hlen
        rw [adjBwd_eq] at e
        simp only [Option.map_eq_none_iff] at e
        obtain ⟨l2, b1, b2, b4⟩ := bwd_none h _ c hk e
        subst hl
        have hch : (l2.reverse ++ c :: t).IsChain (fun x y => rotL M x = some y) := by
          rw [List.isChain_append] at b1 ⊢
          refine ⟨b1.1, i2, ?_⟩
          intro x hx y hy
          exact b1.2.2 x hx y (by simpa using hy)
        have hlv : ∀ x ∈ l2.reverse ++ c :: t, M.live x.1 ∧ M.at x = M.at c := by
          intro x hx
          rcases List.mem_append.1 hx with hx | hx
          · exact b2 x (by simpa using hx)
          · exact i3 x hx
        have hnd : (l2.reverse ++ c :: t).Nodup := by
          apply chain_nodup_last hch
          intro x hx
          have := i4 x (by simpa using hx)
          simpa using this
        refine key (l2.reverse ++ c :: t) _ (List.mem_append_right _ (List.getLast_mem hne)) hnd hlv ?_ hzn ?_
        · intro x hx
          obtain ⟨d, s, hds⟩ : ∃ d s, l2.reverse ++ c :: t = d :: s := List.exists_cons_of_ne_nil (by simp)
          rw [hds] at hx hlv hch
          have hr := chain_reach h (fun x hx => (hlv x hx).1) hch
          exact (fan_reach_symm h (hlv d (by simp)).1 (hr c (by rw [← hds]; simp))).trans (hr x hx)
        · simp only [List.length_append, List.length_reverse, List.length_cons] at i5 b4 hlen ⊢; omega

/-- C105 (partial): if all triangles of the vertex are joined by edges through it, the answer lists the vertices joined to it in the mesh.
Missing: vertices where parts of the mesh touch; see `C105_touching_observed`. -/
theorem C105_joined_partial {M : Mesh} (h : Valid M) {c : HE} (hk : M.live c.1) (hf : ∀ x, M.live x.1 → M.at x = M.at c → ReflTransGen M.Fan c x)
    {lmax : Nat} {r : List Nat} (e : adjaVert M lmax c = some r) (w : Nat) : w ∈ r ↔ M.Joined (M.at c) w := by
  classical
  rw [(C105_neighbours h hk e).1 w]
  constructor
  · rintro ⟨x, hx, i, hi, rfl⟩
    refine ⟨x.1, fan_live h hk hx, x.2, i, fun e => hi e.symm, ?_, rfl⟩
    show M.at x = M.at c
    clear hi
    induction hx with
    | refl => rfl
    | tail _ hf ih => exact hf.1.trans ih
  · rintro ⟨k, h1, i, j, hij, e1, e2⟩
    exact ⟨(k, i), hf (k, i) h1 e1, j, fun e => hij e.symm, e2.symm⟩

/-! ### Cases -/

/-- An open fan of three triangles, asked from its middle, and from its end. -/
example : Valid fan3 ∧ adjaVert fan3 1024 (2, 0) = some [3, 4, 5, 2] ∧ adjaVert fan3 1024 (1, 0) = some [2, 3, 4, 5] ∧
    adjaVert fan3 4 (3, 0) = some [4, 5, 3, 2] ∧ adjaVert fan3 3 (3, 0) = none := by
  exact ⟨fan3_valid, by decide, by decide, by decide, by decide⟩

/-- The hypothesis of `C105_once` and `C105_failure` holds for this fan. -/
theorem fan3_simple : Simple fan3 := by
  have hl : ∀ k, fan3.live k → k = 1 ∨ k = 2 ∨ k = 3 := by
    intro k hk
    by_contra hne
    apply hk
    simp only [not_or] at hne
    simp [fan3, hne]
  constructor
  · rintro ⟨a, i⟩ ⟨b, j⟩ ha hb e1 e2
    rcases hl a ha with rfl | rfl | rfl <;> rcases hl b hb with rfl | rfl | rfl <;> revert e1 e2 <;> revert i j <;> decide
  · rintro ⟨a, i⟩ ⟨b, j⟩ ha hb e1 e2
    rcases hl a ha with rfl | rfl | rfl <;> rcases hl b hb with rfl | rfl | rfl <;> revert e1 e2 <;> revert i j <;> decide

/-- A closed fan. -/
example : ∃ M : Mesh, Valid M ∧ M.live 3 ∧ adjaVert M 3 (3, 0) = some [2, 3, 1] := by
  refine ⟨splitbar oneTri 1 4 2 3, ?_, by decide, by decide⟩
  exact splitbar_valid oneTri_valid (by decide) (by decide) (by decide) (by decide) (by decide) (by decide)
    (by decide) (by decide)

/-- Two triangles with the vertex 1 in common and no common edge. -/
def bow : Mesh where
  tri := fun k => if k = 1 then ⟨![1, 2, 3], fun _ => 0, fun _ => 0, 7⟩
    else if k = 2 then ⟨![1, 4, 5], fun _ => 0, fun _ => 0, 7⟩ else ⟨fun _ => 0, fun _ => 0, fun _ => 0, 0⟩
  adj := fun _ => none

/-- C105: where two parts of the mesh touch at a vertex, only the neighbours in the part of the given triangle are listed. -/
theorem C105_touching_observed : Valid bow ∧ Simple bow ∧ adjaVert bow 1024 (1, 0) = some [2, 3] ∧ bow.Joined 1 4 := by
  have hl : ∀ k, bow.live k → k = 1 ∨ k = 2 := by
    intro k hk
    by_contra hne
    apply hk
    simp only [not_or] at hne
    simp [bow, hne]
  refine ⟨⟨?_, ?_, ?_⟩, ⟨?_, ?_⟩, by decide, 2, by decide, 0, 1, by decide, by decide, by decide⟩
  · intro k hk; rcases hl k hk with rfl | rfl <;> decide
  · intro k hk; rcases hl k hk with rfl | rfl <;> decide
  · rintro a b _ e; cases e
  · rintro ⟨a, i⟩ ⟨b, j⟩ ha hb e1 e2
    rcases hl a ha with rfl | rfl <;> rcases hl b hb with rfl | rfl <;> revert e1 e2 <;> revert i j <;> decide
  · rintro ⟨a, i⟩ ⟨b, j⟩ ha hb e1 e2
    rcases hl a ha with rfl | rfl <;> rcases hl b hb with rfl | rfl <;> revert e1 e2 <;> revert i j <;> decide

end Mmg.Tri2
