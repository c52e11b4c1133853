import Verif.Surf
import Mathlib.Data.Fin.VecNotation
import Mathlib.Tactic.FinCases

/-!
# C94: examples, and what the swap and the test for two triangles miss
-/

namespace Mmg.Surf

open Mmg.Tri2 Relation

/-- A mesh from its triangles; neighbours are found by their edges. -/
def mk (L : List (Nat × Nat × Nat)) (g : Nat → Fin 3 → Nat) : Mesh :=
  let T : Nat → Tri := fun k => match L[k - 1]? with
    | none => ⟨fun _ => 0, fun _ => 0, fun _ => 0, 0⟩
    | some t => if k = 0 then ⟨fun _ => 0, fun _ => 0, fun _ => 0, 0⟩ else ⟨![t.1, t.2.1, t.2.2], g k, fun _ => 0, 7⟩
  { tri := T
    adj := fun h => ((List.range' 1 L.length).flatMap (fun k => [(k, 0), (k, 1), (k, 2)])).find? (fun h' =>
      h.1 ≠ 0 && h.1 ≤ L.length && (T h'.1).v (h'.2 + 1) == (T h.1).v (h.2 + 2) && (T h'.1).v (h'.2 + 2) == (T h.1).v (h.2 + 1)) }

theorem mk_out {L : List (Nat × Nat × Nat)} {g : Nat → Fin 3 → Nat} {k : Nat} (h : (mk L g).live k) : k < L.length + 1 := by
  by_contra hc
  apply h
  have : L[k - 1]? = none := List.getElem?_eq_none (by omega)
  simp [mk, this]

theorem valid_of {M : Mesh} {N : Nat} (hN : ∀ k, M.live k → k < N)
    (h : ∀ k < N, (M.tri k).v 0 ≠ 0 → k ≠ 0 ∧ (∀ i, (M.tri k).v i ≠ 0) ∧ (∀ i j, i ≠ j → (M.tri k).v i ≠ (M.tri k).v j) ∧
      ∀ i, (M.adj (k, i)).all (fun h' => decide ((M.tri h'.1).v 0 ≠ 0 ∧ M.adj h' = some (k, i) ∧ M.org h' = M.dst (k, i) ∧
        M.dst h' = M.org (k, i))) = true) : Valid M := by
  refine ⟨fun k hk => ⟨(h k (hN k hk) hk).1, (h k (hN k hk) hk).2.1⟩, fun k hk => (h k (hN k hk) hk).2.2.1, ?_⟩
  intro x y hx e
  have := (h x.1 (hN _ hx) hx).2.2.2 x.2
  rw [show M.adj (x.1, x.2) = some y from e] at this
  exact of_decide_eq_true this

theorem inj_of {M : Mesh} {N : Nat} (hN : ∀ k, M.live k → k < N)
    (h : ∀ k < N, ∀ k' < N, ∀ i j, (M.tri k).v 0 = 0 ∨ (M.tri k').v 0 = 0 ∨
      ¬ (M.org (k, i) = M.org (k', j) ∧ M.dst (k, i) = M.dst (k', j)) ∨ (k = k' ∧ i = j)) : Inj M := by
  intro x y hx hy a b
  have := (((h x.1 (hN _ hx) y.1 (hN _ hy) x.2 y.2).resolve_left hx).resolve_left hy).resolve_left (fun q => q ⟨a, b⟩)
  exact Prod.ext this.1 this.2

theorem one_of {M : Mesh} {N : Nat} (hN : ∀ k, M.live k → k < N) (h : Valid M) {c : HE} (hk : M.live c.1) {l : List HE} {o : Bool} {lmax : Nat}
    (e : boulet M lmax false c = some (l, o)) (hl : ∀ k < N, (M.tri k).v 0 ≠ 0 → ∀ i, ¬ (M.tri k).v i = M.at c ∨ (k, i) ∈ l) : One M c := by
  intro k i hk' ev
  exact ((C17_ball h hk e).2.2.1 _).1 ((hl k (hN k hk') hk' i).resolve_left (fun q => q ev))

/-- An octahedron. -/
def oct : Mesh := mk [(1, 2, 3), (1, 3, 4), (1, 4, 5), (1, 5, 2), (6, 3, 2), (6, 4, 3), (6, 5, 4), (6, 2, 5)] (fun _ _ => 0)

theorem oct_out (k : Nat) (h : oct.live k) : k < 9 := mk_out h
theorem oct_valid : Valid oct := valid_of oct_out (by decide +kernel)
theorem oct_inj : Inj oct := inj_of oct_out (by decide +kernel)

/-- Collapsing vertex 1 of the octahedron into vertex 2. -/
example : Valid oct ∧ Inj oct ∧ oct.live 1 ∧ One oct (1, 0) ∧ One oct (1, 1) ∧
    (oct.adj (1, 2) = none → ∀ x, oct.live x.1 → oct.org x = (oct.tri 1).v 1 → oct.dst x ≠ oct.at (1, 0)) ∧
    (oct.adj (1, 2) ≠ none → ∀ x, ReflTransGen oct.Fan (1, 0) x → ∀ i, i ≠ x.2 → oct.adj (x.1, i) ≠ none) ∧
    ∃ M', collapse oct (fun _ => false) (fun _ => true) 100 100 (1, 0) = some (some M') := by
  have hl : oct.live 1 := by unfold Mesh.live; decide +kernel
  have e1 : boulet oct 100 false (1, 0) = some ([(1, 0), (2, 0), (3, 0), (4, 0)], false) := by decide +kernel
  refine ⟨oct_valid, oct_inj, hl, one_of oct_out oct_valid hl e1 (by decide +kernel), ?_, ?_, ?_, ?_⟩
  · exact one_of (c := (1, 1)) (l := [(1, 1), (4, 2), (8, 1), (5, 2)]) (o := false) (lmax := 100) oct_out oct_valid hl (by decide +kernel)
      (by decide +kernel)
  · intro q
    exact absurd q (by decide +kernel)
  · intro _ x hx i _
    have hx' := ((C17_ball oct_valid (c := (1, 0)) hl e1).2.2.1 x).2 hx
    revert i x
    have : ∀ x ∈ [((1 : Nat), (0 : Fin 3)), (2, 0), (3, 0), (4, 0)], ∀ i, oct.adj (x.1, i) ≠ none := by decide +kernel
    intro x _ i _ hx'
    exact this x hx' i
  · have : (match collapse oct (fun _ => false) (fun _ => true) 100 100 (1, 0) with | some (some _) => true | _ => false) = true := by
      decide +kernel
    revert this
    cases collapse oct (fun _ => false) (fun _ => true) 100 100 (1, 0) with
    | none => simp
    | some o => cases o with
      | none => simp
      | some M' => exact fun _ => ⟨M', rfl⟩

/-- Splitting an edge of the octahedron. -/
example : ∃ M' P', split1b oct ⟨fun _ => 0, fun _ => 0⟩ 1 0 7 (some 9) (some 10) = (true, M', P') ∧ oct.adj (1, 0) = some (5, 0) ∧
    ¬ oct.live 9 ∧ ¬ oct.live 10 ∧ (∀ x, oct.live x → ∀ y, (oct.tri x).v y ≠ 7) ∧ (oct.tri 1).v 0 ≠ (oct.tri 5).v 0 := by
  have h0 : oct.adj (1, 0) = some (5, 0) := by decide +kernel
  refine ⟨(split1b oct ⟨fun _ => 0, fun _ => 0⟩ 1 0 7 (some 9) (some 10)).2.1,
    (split1b oct ⟨fun _ => 0, fun _ => 0⟩ 1 0 7 (some 9) (some 10)).2.2, ?_, h0, fun q => absurd (oct_out _ q) (by decide), fun q => absurd (oct_out _ q) (by decide), ?_, by decide +kernel⟩
  · unfold split1b
    simp only [h0]
  · intro x hx
    have : ∀ x < 9, ∀ y, (oct.tri x).v y ≠ 7 := by decide +kernel
    exact this x (oct_out x hx)

/-- A swap in the octahedron that keeps directed edges in one triangle. -/
example : ∃ M', swapar (fun _ => false) oct 1 0 = some (true, M') ∧ oct.adj (1, 0) = some (5, 0) ∧ Inj M' := by
  have h0 : oct.adj (1, 0) = some (5, 0) := by decide +kernel
  have hl : oct.live 1 := by unfold Mesh.live; decide +kernel
  have : ∃ M', swapar (fun _ => false) oct 1 0 = some (true, M') := by
    have : (match swapar (fun _ => false) oct 1 0 with | some (true, _) => true | _ => false) = true := by decide +kernel
    revert this
    cases swapar (fun _ => false) oct 1 0 with
    | none => simp
    | some o =>
      obtain ⟨b, M'⟩ := o
      cases b with
      | false => simp
      | true => exact fun _ => ⟨M', rfl⟩
  obtain ⟨M', hM'⟩ := this
  refine ⟨M', hM', h0, ((C94_swap (fun _ => false) oct_valid oct_inj hl h0 (by decide +kernel) hM').2.2.1).2 ?_⟩
  intro x hx
  have : ∀ k < 9, (oct.tri k).v 0 ≠ 0 → ∀ i, ¬ (oct.org (k, i) = (oct.tri 5).v 0 ∧ oct.dst (k, i) = (oct.tri 1).v 0) ∧
      ¬ (oct.org (k, i) = (oct.tri 1).v 0 ∧ oct.dst (k, i) = (oct.tri 5).v 0) := by decide +kernel
  exact this x.1 (oct_out _ hx) hx x.2

/-- A closed surface of eight triangles; the vertices 3 and 4, opposite to the edge 1 2, are already joined. -/
def joined8 : Mesh := mk [(1, 2, 3), (2, 1, 4), (5, 1, 3), (5, 4, 1), (5, 3, 4), (6, 3, 2), (6, 2, 4), (6, 4, 3)] (fun _ _ => 0)

/-- C94: `swapar` does not look whether the new edge exists.  On a closed oriented surface it accepts a swap after which an edge has
four triangles, two in each direction. -/
theorem C94_swap_existing_edge_observed : ∃ M : Mesh, Valid M ∧ Inj M ∧ (∀ h, M.live h.1 → M.adj h ≠ none) ∧
    ∃ M', swapar (fun _ => false) M 1 2 = some (true, M') ∧ Valid M' ∧ ¬ Inj M' := by
  have h0 : joined8.adj (1, 2) = some (2, 2) := by decide +kernel
  have hl : joined8.live 1 := by unfold Mesh.live; decide +kernel
  have ou : ∀ k, joined8.live k → k < 9 := fun k q => mk_out q
  have hV : Valid joined8 := valid_of ou (by decide +kernel)
  have hI : Inj joined8 := inj_of ou (by decide +kernel)
  have : ∃ M', swapar (fun _ => false) joined8 1 2 = some (true, M') := by
    have : (match swapar (fun _ => false) joined8 1 2 with | some (true, _) => true | _ => false) = true := by decide +kernel
    revert this
    cases swapar (fun _ => false) joined8 1 2 with
    | none => simp
    | some o =>
      obtain ⟨b, M'⟩ := o
      cases b with
      | false => simp
      | true => exact fun _ => ⟨M', rfl⟩
  obtain ⟨M', hM'⟩ := this
  have S := C94_swap (fun _ => false) hV hI hl h0 (by decide +kernel) hM'
  refine ⟨joined8, hV, hI, ?_, M', hM', S.2.1, fun q => ?_⟩
  · intro x hx
    have : ∀ k < 9, (joined8.tri k).v 0 ≠ 0 → ∀ i, joined8.adj (k, i) ≠ none := by decide +kernel
    exact this x.1 (ou _ hx) hx x.2
  · have hl5 : joined8.live 5 := by unfold Mesh.live; decide +kernel
    exact ((S.2.2.1.1 q) (5, 0) hl5).2 (by decide +kernel)

/-- The comparison in `chkcol` for two triangles, colver_s.c 257-259: refuse, if true. -/
def test2 (P : Pts) (M : Mesh) (a b : HE) : Bool :=
  decide (P.tag (M.at b) > P.tag (M.at a)) || decide (P.ref (M.at b) ≠ P.ref (M.at a))

/-- C94: this comparison is made between the removed vertex and itself, and never refuses. -/
theorem C94_two_triangles_test_observed {M : Mesh} (h : Valid M) {a b : HE} (hk : M.live a.1) {lmax : Nat} {o : Bool}
    (hb : boulet M lmax false a = some ([a, b], o)) (P : Pts) : test2 P M a b = false := by
  have : M.at b = M.at a := ((C17_ball h hk hb).2.2.2.1 b (by simp)).2
  simp [test2, this]

/-- Three triangles: 1 has two triangles and lies on the border. -/
def strip3 : Mesh := mk [(1, 2, 3), (1, 3, 4), (4, 3, 5)] (fun _ _ => 0)

/-- Collapsing vertex 1 along the border edge to 2: two triangles; and splitting the border edge 1 2; and the test. -/
example : Valid strip3 ∧ Inj strip3 ∧ strip3.live 1 ∧ One strip3 (1, 0) ∧ One strip3 (1, 1) ∧ strip3.adj (1, 2) = none ∧
    (∀ x, strip3.live x.1 → strip3.org x = (strip3.tri 1).v 1 → strip3.dst x ≠ strip3.at (1, 0)) ∧
    boulet strip3 100 false (1, 0) = some ([(1, 0), (2, 0)], true) ∧
    (∃ M', collapse strip3 (fun _ => false) (fun _ => true) 100 100 (1, 0) = some (some M')) ∧
    (∃ M' P', split1b strip3 ⟨fun _ => 0, fun _ => 0⟩ 1 2 6 (some 4) none = (true, M', P')) ∧ ¬ strip3.live 4 ∧
    ∀ x, strip3.live x → ∀ y, (strip3.tri x).v y ≠ 6 := by
  have ou : ∀ k, strip3.live k → k < 4 := fun k q => mk_out q
  have hV : Valid strip3 := valid_of ou (by decide +kernel)
  have hl : strip3.live 1 := by unfold Mesh.live; decide +kernel
  have e1 : boulet strip3 100 false (1, 0) = some ([(1, 0), (2, 0)], true) := by decide +kernel
  have h0 : strip3.adj (1, 2) = none := by decide +kernel
  refine ⟨hV, inj_of ou (by decide +kernel), hl, one_of ou hV hl e1 (by decide +kernel), ?_, h0, ?_, e1, ?_, ?_,
    fun q => absurd (ou _ q) (by decide), ?_⟩
  · exact one_of (c := (1, 1)) (l := [(1, 1)]) (o := true) (lmax := 100) ou hV hl (by decide +kernel) (by decide +kernel)
  · intro x hx q
    have : ∀ k < 4, ∀ i, ¬ (strip3.org (k, i) = (strip3.tri 1).v 1) ∨ strip3.dst (k, i) ≠ strip3.at (1, 0) := by decide +kernel
    exact (this x.1 (ou _ hx) x.2).resolve_left (fun z => z q)
  · have : (match collapse strip3 (fun _ => false) (fun _ => true) 100 100 (1, 0) with | some (some _) => true | _ => false) = true := by
      decide +kernel
    revert this
    cases collapse strip3 (fun _ => false) (fun _ => true) 100 100 (1, 0) with
    | none => simp
    | some o => cases o with
      | none => simp
      | some M' => exact fun _ => ⟨M', rfl⟩
  · refine ⟨(split1b strip3 ⟨fun _ => 0, fun _ => 0⟩ 1 2 6 (some 4) none).2.1,
      (split1b strip3 ⟨fun _ => 0, fun _ => 0⟩ 1 2 6 (some 4) none).2.2, ?_⟩
    unfold split1b
    simp only [h0]
  · intro x hx
    have : ∀ x < 4, ∀ y, (strip3.tri x).v y ≠ 6 := by decide +kernel
    exact this x (ou x hx)

/-- Two triangles at the marked edge 2 3, which gets the point 9; their outer edges are the border. -/
example : ∃ (L : List Tri) (F B : Multiset Side), (L.map sides).sum = F + B ∧ F.map flip = F ∧ F ≠ 0 ∧ L.length = 2 ∧
    ∀ a b, (fun a b : Nat => if a + b = 5 ∧ a * b = 6 then 9 else 0) a b = (fun a b : Nat => if a + b = 5 ∧ a * b = 6 then 9 else 0) b a := by
  refine ⟨[⟨![1, 2, 3], ![2, 0, 0], ![4, 0, 0], 0⟩, ⟨![7, 3, 2], ![2, 0, 0], ![4, 0, 0], 0⟩], {(2, 3, 2, 4), (3, 2, 2, 4)},
    {(3, 1, 0, 0), (1, 2, 0, 0), (2, 7, 0, 0), (7, 3, 0, 0)}, by decide +kernel, by decide +kernel, by decide +kernel, rfl, ?_⟩
  intro a b
  simp only [Nat.add_comm, Nat.mul_comm]

/-- The hypotheses of `C94_split_failure_observed`. -/
example : Valid oct ∧ oct.live 1 ∧ oct.adj (1, 0) = some (5, 0) ∧ ¬ oct.live 9 :=
  ⟨oct_valid, by unfold Mesh.live; decide +kernel, by decide +kernel, fun q => absurd (oct_out _ q) (by decide)⟩

end Mmg.Surf
