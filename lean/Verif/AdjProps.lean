/-
Properties C04, C05 (tetrahedra), C06 (2D triangles), C42 (prisms): the adjacency tables are
symmetric, join slots with the same face, and miss no shared face.
-/
import Verif.AdjLemmas
import Verif.Util
import Mathlib.Data.Finset.Range
import Mathlib.Data.Multiset.MapFold
import Mathlib.Tactic.IntervalCases

namespace Mmg.Adj

/-! ### Specification vocabulary -/

/-- The three vertices of the face opposite to local vertex `i`: all vertices of the element
but the `i`-th. -/
def TetMesh.faceVerts (m : TetMesh) (k i : Nat) : Multiset Nat :=
  (((Finset.range 4).erase i).val).map (m.v k)

/-- The two end points of the edge opposite to local vertex `i`. -/
def TriMesh.edgeVerts (m : TriMesh) (k i : Nat) : Multiset Nat :=
  (((Finset.range 3).erase i).val).map (m.v k)

/-- Element `k` is in the table. -/
def TetMesh.Packed (m : TetMesh) : Prop := ∀ k, 1 ≤ k → k ≤ m.ne → m.v k 0 ≠ 0

/-- A (element, face) pair of the mesh. -/
def TetMesh.Slot (m : TetMesh) (k i : Nat) : Prop := 1 ≤ k ∧ k ≤ m.ne ∧ i < 4

/-- A (triangle, edge) pair of the mesh (unused triangles excluded). -/
def TriMesh.Slot (m : TriMesh) (k i : Nat) : Prop := 1 ≤ k ∧ k ≤ m.nt ∧ i < 3 ∧ m.v k 0 ≠ 0

/-! ### Correspondence between slots and (element, face) pairs -/

theorem slot_div {d k i : Nat} (hk : 1 ≤ k) (hi : i < d) :
    (d * (k - 1) + 1 + i - 1) / d + 1 = k ∧ (d * (k - 1) + 1 + i - 1) % d = i := by
  have e : d * (k - 1) + 1 + i - 1 = d * (k - 1) + i := by omega
  have hd : 0 < d := by omega
  rw [e, Nat.mul_add_div hd, Nat.div_eq_of_lt hi, Nat.mul_add_mod, Nat.mod_eq_of_lt hi]
  omega

theorem slot_of {d l : Nat} (_hd : 0 < d) (hl : 1 ≤ l) :
    l = d * ((l - 1) / d + 1 - 1) + 1 + (l - 1) % d := by
  have := Nat.div_add_mod (l - 1) d
  have e : (l - 1) / d + 1 - 1 = (l - 1) / d := Nat.add_sub_cancel _ _
  rw [e]; omega

theorem slot_le {d k i n : Nat} (hk : 1 ≤ k) (hkn : k ≤ n) (hi : i < d) :
    d * (k - 1) + 1 + i ≤ d * n := by
  have h1 : d * (k - 1) + d = d * k := by
    rw [← Nat.mul_succ]; congr 1; omega
  have h2 : d * k ≤ d * n := Nat.mul_le_mul_left d hkn
  omega

theorem div_le {d l n : Nat} (hd : 0 < d) (hl : 1 ≤ l) (h : l ≤ d * n) : (l - 1) / d + 1 ≤ n := by
  have : (l - 1) / d < n := (Nat.div_lt_iff_lt_mul hd).2 (by rw [Nat.mul_comm]; omega)
  omega

theorem code_slot {d k i : Nat} (hk : 1 ≤ k) (hi : i < d) :
    code d (d * (k - 1) + 1 + i) = ((d * k + i : Nat) : Int) := by
  unfold code
  rw [(slot_div hk hi).1, (slot_div hk hi).2]

theorem slot_inj {d k i k' i' : Nat} (hk : 1 ≤ k) (hi : i < d) (hk' : 1 ≤ k') (hi' : i' < d)
    (h : d * (k - 1) + 1 + i = d * (k' - 1) + 1 + i') : k = k' ∧ i = i' := by
  have h1 := slot_div hk hi
  have h2 := slot_div hk' hi'
  rw [h] at h1
  exact ⟨by rw [← h1.1, h2.1], by rw [← h1.2, h2.2]⟩

/-! ### Tetrahedra -/

theorem tface_eq_iff (m : TetMesh) {k i k' i' : Nat} (hi : i < 4) (hi' : i' < 4) :
    tface m k i = tface m k' i' ↔ m.faceVerts k i = m.faceVerts k' i' := by
  have hf : ∀ k i, i < 4 → m.faceVerts k i =
      {m.v k (idir i).1, m.v k (idir i).2.1, m.v k (idir i).2.2} := by
    intro k i hi
    have e0 : (((Finset.range 4).erase 0).val) = {1, 2, 3} := by decide
    have e1 : (((Finset.range 4).erase 1).val) = {0, 3, 2} := by decide
    have e2 : (((Finset.range 4).erase 2).val) = {0, 1, 3} := by decide
    have e3 : (((Finset.range 4).erase 3).val) = {0, 2, 1} := by decide
    unfold TetMesh.faceVerts
    interval_cases i
    · rw [e0]; rfl
    · rw [e1]; rfl
    · rw [e2]; rfl
    · rw [e3]; rfl
  rw [hf k i hi, hf k' i' hi', ← min_max_sum3]
  simp only [tface, Prod.mk.injEq]

theorem tetHyp (m : TetMesh) {inival : Nat} (h : 4 * m.ne < inival) :
    Hyp (tetParams m inival (4 * m.ne)) := by
  refine ⟨by simp [tetParams], by simpa [tetParams] using h, ?_, ?_, ?_⟩
  · intro l ll; simp only [tetParams, beq_iff_eq]; exact Eq.symm
  · intro a b c; simp only [tetParams, beq_iff_eq]; exact Eq.trans
  · intro l ll; simp only [tetParams, beq_iff_eq, tkey]
    intro h; rw [h]

theorem tetFaces_eq (m : TetMesh) (inival N k : Nat) (i : Nat) (hi : i ≤ 4) :
    tetFaces m (k + 1) (4 * k, stage1 (tetParams m inival N) (4 * k)) i =
      (4 * k + i, stage1 (tetParams m inival N) (4 * k + i)) := by
  induction i with
  | zero => rfl
  | succ i ih =>
    rw [tetFaces, ih (by omega)]
    have e := slot_div (d := 4) (k := k + 1) (i := i) (by omega) (by omega)
    have e' : 4 * (k + 1 - 1) + 1 + i = 4 * k + i + 1 := by omega
    rw [e'] at e
    have hkey : (tetParams m inival N).key (4 * k + i + 1) = tkey m (k + 1) i := by
      show tkey m ((4 * k + i + 1 - 1) / 4 + 1) ((4 * k + i + 1 - 1) % 4) = _
      rw [e.1, e.2]
    have hv : (tetParams m inival N).valid (4 * k + i + 1) = true := rfl
    show _ = (4 * k + i + 1, stage1 (tetParams m inival N) (4 * k + i + 1))
    rw [stage1, hkey]
    simp only [hv, if_true]

theorem tetStage1_eq (m : TetMesh) (inival N : Nat) (n : Nat) (hn : n ≤ m.ne) (hp : m.Packed) :
    tetStage1 m inival n = (4 * n, stage1 (tetParams m inival N) (4 * n)) := by
  induction n with
  | zero => rfl
  | succ n ih =>
    rw [tetStage1, ih (by omega), if_neg (hp (n + 1) (by omega) hn), tetFaces_eq _ _ _ _ 4 (by omega)]
    rfl

theorem hashTetra_eq (m : TetMesh) (inival : Nat) (hp : m.Packed) :
    hashTetra m inival = build (tetParams m inival (4 * m.ne)) := by
  unfold hashTetra build
  rw [tetStage1_eq m inival (4 * m.ne) m.ne (Nat.le_refl _) hp]
  rfl

theorem tetV (m : TetMesh) (inival : Nat) {k i : Nat} (h : m.Slot k i) :
    V (tetParams m inival (4 * m.ne)) (4 * m.ne) (4 * (k - 1) + 1 + i) :=
  ⟨by omega, slot_le h.1 h.2.1 h.2.2, rfl⟩

theorem tetSame (m : TetMesh) (inival : Nat) {k i k' i' : Nat} (h : m.Slot k i) (h' : m.Slot k' i') :
    (tetParams m inival (4 * m.ne)).same (4 * (k - 1) + 1 + i) (4 * (k' - 1) + 1 + i') = true ↔
      m.faceVerts k i = m.faceVerts k' i' := by
  rw [← tface_eq_iff m h.2.2 h'.2.2]
  simp only [tetParams, beq_iff_eq]
  rw [(slot_div h.1 h.2.2).1, (slot_div h.1 h.2.2).2, (slot_div h'.1 h'.2.2).1,
    (slot_div h'.1 h'.2.2).2]

/-- **C04.** On a packed tetrahedral mesh the construction succeeds without leaving the arrays,
and each (element, face) is either without neighbour or mutually linked with a different
(element, face) having exactly the same three vertices. -/
theorem C04_tetra_adjacency_symmetric (m : TetMesh) (inival : Nat) (hp : m.Packed)
    (hN : 4 * m.ne < inival) :
    ∃ adja, hashTetra m inival = some adja ∧ ∀ k i, m.Slot k i →
      adja (4 * (k - 1) + 1 + i) = 0 ∨
      ∃ k' i', m.Slot k' i' ∧ (k', i') ≠ (k, i) ∧
        adja (4 * (k - 1) + 1 + i) = ((4 * k' + i' : Nat) : Int) ∧
        adja (4 * (k' - 1) + 1 + i') = ((4 * k + i : Nat) : Int) ∧
        m.faceVerts k i = m.faceVerts k' i' := by
  obtain ⟨adj, h1, h2⟩ := build_spec (tetHyp m hN)
  refine ⟨adj, by rw [hashTetra_eq m inival hp]; exact h1, ?_⟩
  intro k i hs
  rcases h2.pair _ (tetV m inival hs) with h | ⟨s', p1, p2, p3, p4, p5⟩
  · exact Or.inl h
  · right
    have hs1 : 1 ≤ s' := p1.1
    have hslot : m.Slot ((s' - 1) / 4 + 1) ((s' - 1) % 4) :=
      ⟨by omega, div_le (by omega) hs1 p1.2.1, Nat.mod_lt _ (by omega)⟩
    have hse := slot_of (d := 4) (by omega) hs1
    refine ⟨(s' - 1) / 4 + 1, (s' - 1) % 4, hslot, ?_, ?_, ?_, ?_⟩
    · intro e
      simp only [Prod.mk.injEq] at e
      apply p2; rw [hse, e.1, e.2]
    · rw [p4]; rfl
    · rw [← hse, p5]
      exact code_slot hs.1 hs.2.2
    · rw [← tetSame m inival hs hslot, ← hse]; exact p3

/-- **C05.** Two different (element, face) pairs with the same three vertices are never both left
without neighbour; hence, when a face is shared by at most two pairs, a pair is without neighbour
iff it is the only one with this face. -/
theorem C05_tetra_adjacency_complete (m : TetMesh) (inival : Nat) (hp : m.Packed)
    (hN : 4 * m.ne < inival) :
    ∃ adja, hashTetra m inival = some adja ∧
      (∀ k i k' i', m.Slot k i → m.Slot k' i' → (k, i) ≠ (k', i') →
        m.faceVerts k i = m.faceVerts k' i' →
        ¬ (adja (4 * (k - 1) + 1 + i) = 0 ∧ adja (4 * (k' - 1) + 1 + i') = 0)) ∧
      ((∀ k₁ i₁ k₂ i₂ k₃ i₃, m.Slot k₁ i₁ → m.Slot k₂ i₂ → m.Slot k₃ i₃ →
          m.faceVerts k₁ i₁ = m.faceVerts k₂ i₂ → m.faceVerts k₁ i₁ = m.faceVerts k₃ i₃ →
          (k₁, i₁) = (k₂, i₂) ∨ (k₁, i₁) = (k₃, i₃) ∨ (k₂, i₂) = (k₃, i₃)) →
        ∀ k i, m.Slot k i →
          (adja (4 * (k - 1) + 1 + i) = 0 ↔
            ¬ ∃ k' i', m.Slot k' i' ∧ (k', i') ≠ (k, i) ∧ m.faceVerts k i = m.faceVerts k' i')) := by
  obtain ⟨adj, h1, h2⟩ := build_spec (tetHyp m hN)
  have hb : hashTetra m inival = some adj := by rw [hashTetra_eq m inival hp]; exact h1
  obtain ⟨adj', h1', h4⟩ := C04_tetra_adjacency_symmetric m inival hp hN
  have : adj' = adj := by rw [hb] at h1'; exact (Option.some.inj h1').symm
  subst this
  have hapart : ∀ k i k' i', m.Slot k i → m.Slot k' i' → (k, i) ≠ (k', i') →
        m.faceVerts k i = m.faceVerts k' i' →
        ¬ (adj' (4 * (k - 1) + 1 + i) = 0 ∧ adj' (4 * (k' - 1) + 1 + i') = 0) := by
    rintro k i k' i' hs hs' hne hf ⟨e1, e2⟩
    refine h2.maximal _ _ (tetV m inival hs) (tetV m inival hs') ?_
      ((tetSame m inival hs hs').2 hf) e1 e2
    intro e
    have := slot_inj hs.1 hs.2.2 hs'.1 hs'.2.2 e
    exact hne (by rw [this.1, this.2])
  refine ⟨adj', hb, hapart, ?_⟩
  intro htwo k i hs
  constructor
  · rintro h0 ⟨k', i', hs', hne, hf⟩
    rcases h4 k' i' hs' with h | ⟨k'', i'', hs'', hne', e1, e2, hf'⟩
    · exact hapart k i k' i' hs hs' (Ne.symm hne) hf ⟨h0, h⟩
    · rcases htwo k' i' k i k'' i'' hs' hs hs'' hf.symm hf' with h | h | h
      · exact hne h
      · exact hne' h.symm
      · simp only [Prod.mk.injEq] at h
        rw [← h.1, ← h.2, h0] at e2
        have := hs'.1
        omega
  · intro hno
    rcases h4 k i hs with h | ⟨k', i', hs', hne, _, _, hf⟩
    · exact h
    · exact absurd ⟨k', i', hs', hne, hf⟩ hno

/-- If the four vertices of each element are distinct, an element is never its own neighbour. -/
theorem C04_no_self_adjacency (m : TetMesh) (inival : Nat) (hp : m.Packed)
    (hN : 4 * m.ne < inival)
    (hd : ∀ k i j, 1 ≤ k → k ≤ m.ne → i < 4 → j < 4 → m.v k i = m.v k j → i = j) :
    ∃ adja, hashTetra m inival = some adja ∧ ∀ k i, m.Slot k i → ∀ i', i' < 4 →
      adja (4 * (k - 1) + 1 + i) ≠ ((4 * k + i' : Nat) : Int) := by
  obtain ⟨adj, h1, h4⟩ := C04_tetra_adjacency_symmetric m inival hp hN
  refine ⟨adj, h1, ?_⟩
  intro k i hs i' hi' he
  rcases h4 k i hs with h | ⟨k', j, hs', hne, e1, _, hf⟩
  · have := hs.1; omega
  · have hk : k' = k ∧ j = i' := by
      have := hs'.2.2; omega
    obtain ⟨rfl, rfl⟩ := hk
    have hij : i ≠ j := by rintro rfl; exact hne rfl
    -- vertex `i` of the element belongs to the face opposite to `j`, not to the one opposite to `i`
    have hmem : m.v k' i ∈ m.faceVerts k' j := by
      unfold TetMesh.faceVerts
      exact Multiset.mem_map.2 ⟨i, Finset.mem_erase.2 ⟨hij, Finset.mem_range.2 hs.2.2⟩, rfl⟩
    rw [← hf] at hmem
    unfold TetMesh.faceVerts at hmem
    obtain ⟨a, ha, hav⟩ := Multiset.mem_map.1 hmem
    simp only [Finset.mem_val, Finset.mem_erase, Finset.mem_range] at ha
    exact ha.1 (hd k' a i hs.1 hs.2.1 ha.2 hs.2.2 hav)

/-- Two tetrahedra (1,2,3,4) and (2,3,4,5) sharing the face {2,3,4}. -/
def exTet : TetMesh where
  ne := 2
  v := fun k i => if k = 1 then [1, 2, 3, 4].getD i 0 else [2, 3, 4, 5].getD i 0

example : (hashTetra exTet 1000).map (fun a => ([1, 2, 3, 4].map a, [5, 6, 7, 8].map a)) =
    some ([11, 0, 0, 0], [0, 0, 0, 4]) := by decide

example : exTet.Packed := by
  intro k h1 h2
  have : k = 1 ∨ k = 2 := by have : k ≤ 2 := h2; omega
  rcases this with rfl | rfl <;> decide

/-- The packing hypothesis is needed: with a hole the counter `iadr` and the element index
disagree, and the shared face of elements 2 and 3 is recorded at wrong places. -/
theorem C04_packing_needed : ∃ m : TetMesh, ∃ adja, hashTetra m 1000 = some adja ∧
    ¬ m.Packed ∧ m.Slot 2 0 ∧ m.Slot 3 3 ∧ m.faceVerts 2 0 = m.faceVerts 3 3 ∧
    adja (4 * (2 - 1) + 1 + 0) ≠ ((4 * 3 + 3 : Nat) : Int) := by
  refine ⟨⟨3, fun k i => if k = 1 then 0 else if k = 2 then [1, 2, 3, 4].getD i 0 else [2, 3, 4, 5].getD i 0⟩,
    _, rfl, ?_, ⟨by decide, by decide, by decide⟩, ⟨by decide, by decide, by decide⟩, by decide, by decide⟩
  intro h
  exact h 1 (by decide) (by decide) rfl

/-! ### 2D triangles -/

theorem tedge_eq_iff (m : TriMesh) {k i k' i' : Nat} (hi : i < 3) (hi' : i' < 3) :
    tedge m k i = tedge m k' i' ↔ m.edgeVerts k i = m.edgeVerts k' i' := by
  have hf : ∀ k i, i < 3 → m.edgeVerts k i = {m.v k ((i + 1) % 3), m.v k ((i + 2) % 3)} := by
    intro k i hi
    have e0 : (((Finset.range 3).erase 0).val) = {1, 2} := by decide
    have e1 : (((Finset.range 3).erase 1).val) = {2, 0} := by decide
    have e2 : (((Finset.range 3).erase 2).val) = {0, 1} := by decide
    unfold TriMesh.edgeVerts
    interval_cases i
    · rw [e0]; rfl
    · rw [e1]; rfl
    · rw [e2]; rfl
  rw [hf k i hi, hf k' i' hi']
  simp only [tedge]
  generalize m.v k ((i + 1) % 3) = a
  generalize m.v k ((i + 2) % 3) = b
  generalize m.v k' ((i' + 1) % 3) = c
  generalize m.v k' ((i' + 2) % 3) = d
  have key : ({a, b} : Multiset Nat) = {c, d} ↔ [a, b].Perm [c, d] := by
    show ((a ::ₘ ({b} : Multiset Nat)) = c ::ₘ ({d} : Multiset Nat)) ↔ _
    exact Multiset.coe_eq_coe
  rw [key, perm2_iff]
  split_ifs <;> simp only [Prod.mk.injEq] <;> omega

theorem triHyp (m : TriMesh) {inival : Nat} (h : 3 * m.nt < inival) :
    Hyp (triParams m inival) := by
  refine ⟨by simp [triParams], by simpa [triParams] using h, ?_, ?_, ?_⟩
  · intro l ll; simp only [triParams, beq_iff_eq]; exact Eq.symm
  · intro a b c; simp only [triParams, beq_iff_eq]; exact Eq.trans
  · intro l ll; simp only [triParams, beq_iff_eq]
    intro h; rw [h]

theorem triV (m : TriMesh) (inival : Nat) {k i : Nat} (h : m.Slot k i) :
    V (triParams m inival) (3 * m.nt) (3 * (k - 1) + 1 + i) := by
  refine ⟨by omega, slot_le h.1 h.2.1 h.2.2.1, ?_⟩
  simp only [triParams, bne_iff_ne]
  rw [(slot_div h.1 h.2.2.1).1]; exact h.2.2.2

theorem triSame (m : TriMesh) (inival : Nat) {k i k' i' : Nat} (h : m.Slot k i) (h' : m.Slot k' i') :
    (triParams m inival).same (3 * (k - 1) + 1 + i) (3 * (k' - 1) + 1 + i') = true ↔
      m.edgeVerts k i = m.edgeVerts k' i' := by
  rw [← tedge_eq_iff m h.2.2.1 h'.2.2.1]
  simp only [triParams, beq_iff_eq]
  rw [(slot_div h.1 h.2.2.1).1, (slot_div h.1 h.2.2.1).2, (slot_div h'.1 h'.2.2.1).1,
    (slot_div h'.1 h'.2.2.1).2]

/-- **C06.** 2D adjacency: the construction stays inside its arrays; existing (triangle, edge)
pairs are without neighbour or mutually linked with a different existing pair having the same end
points; two pairs with the same edge are never both without neighbour; entries of unused
triangles are zero. -/
theorem C06_tria_adjacency (m : TriMesh) (inival : Nat) (hN : 3 * m.nt < inival) :
    ∃ adja, hashTria m inival = some adja ∧
      (∀ k i, m.Slot k i →
        adja (3 * (k - 1) + 1 + i) = 0 ∨
        ∃ k' i', m.Slot k' i' ∧ (k', i') ≠ (k, i) ∧
          adja (3 * (k - 1) + 1 + i) = ((3 * k' + i' : Nat) : Int) ∧
          adja (3 * (k' - 1) + 1 + i') = ((3 * k + i : Nat) : Int) ∧
          m.edgeVerts k i = m.edgeVerts k' i') ∧
      (∀ k i k' i', m.Slot k i → m.Slot k' i' → (k, i) ≠ (k', i') →
        m.edgeVerts k i = m.edgeVerts k' i' →
        ¬ (adja (3 * (k - 1) + 1 + i) = 0 ∧ adja (3 * (k' - 1) + 1 + i') = 0)) ∧
      (∀ k i, 1 ≤ k → k ≤ m.nt → i < 3 → m.v k 0 = 0 → adja (3 * (k - 1) + 1 + i) = 0) := by
  obtain ⟨adj, h1, h2⟩ := build_spec (triHyp m hN)
  refine ⟨adj, h1, ?_, ?_, ?_⟩
  · intro k i hs
    rcases h2.pair _ (triV m inival hs) with h | ⟨s', p1, p2, p3, p4, p5⟩
    · exact Or.inl h
    · right
      have hs1 : 1 ≤ s' := p1.1
      have hv : m.v ((s' - 1) / 3 + 1) 0 ≠ 0 := by
        have := p1.2.2
        simpa [triParams] using this
      have hslot : m.Slot ((s' - 1) / 3 + 1) ((s' - 1) % 3) :=
        ⟨by omega, div_le (by omega) hs1 p1.2.1, Nat.mod_lt _ (by omega), hv⟩
      have hse := slot_of (d := 3) (by omega) hs1
      refine ⟨(s' - 1) / 3 + 1, (s' - 1) % 3, hslot, ?_, ?_, ?_, ?_⟩
      · intro e
        simp only [Prod.mk.injEq] at e
        apply p2; rw [hse, e.1, e.2]
      · rw [p4]; rfl
      · rw [← hse, p5]
        exact code_slot hs.1 hs.2.2.1
      · rw [← triSame m inival hs hslot, ← hse]; exact p3
  · rintro k i k' i' hs hs' hne hf ⟨e1, e2⟩
    refine h2.maximal _ _ (triV m inival hs) (triV m inival hs') ?_
      ((triSame m inival hs hs').2 hf) e1 e2
    intro e
    have := slot_inj hs.1 hs.2.2.1 hs'.1 hs'.2.2.1 e
    exact hne (by rw [this.1, this.2])
  · intro k i hk hkn hi hv
    apply h2.inval
    rintro ⟨_, _, hval⟩
    simp only [triParams, bne_iff_ne] at hval
    rw [(slot_div hk hi).1] at hval
    exact hval hv

/-- **C06, completeness.** When each edge is shared by at most two (triangle, edge) pairs, a pair
is without neighbour iff no other triangle has this edge. -/
theorem C06_tria_boundary_iff (m : TriMesh) (inival : Nat) (hN : 3 * m.nt < inival)
    (htwo : ∀ k₁ i₁ k₂ i₂ k₃ i₃, m.Slot k₁ i₁ → m.Slot k₂ i₂ → m.Slot k₃ i₃ →
          m.edgeVerts k₁ i₁ = m.edgeVerts k₂ i₂ → m.edgeVerts k₁ i₁ = m.edgeVerts k₃ i₃ →
          (k₁, i₁) = (k₂, i₂) ∨ (k₁, i₁) = (k₃, i₃) ∨ (k₂, i₂) = (k₃, i₃)) :
    ∃ adja, hashTria m inival = some adja ∧ ∀ k i, m.Slot k i →
      (adja (3 * (k - 1) + 1 + i) = 0 ↔
        ¬ ∃ k' i', m.Slot k' i' ∧ (k', i') ≠ (k, i) ∧ m.edgeVerts k i = m.edgeVerts k' i') := by
  obtain ⟨adj, h1, h4, hapart, _⟩ := C06_tria_adjacency m inival hN
  refine ⟨adj, h1, ?_⟩
  intro k i hs
  constructor
  · rintro h0 ⟨k', i', hs', hne, hf⟩
    rcases h4 k' i' hs' with h | ⟨k'', i'', hs'', hne', e1, e2, hf'⟩
    · exact hapart k i k' i' hs hs' (Ne.symm hne) hf ⟨h0, h⟩
    · rcases htwo k' i' k i k'' i'' hs' hs hs'' hf.symm hf' with h | h | h
      · exact hne h
      · exact hne' h.symm
      · simp only [Prod.mk.injEq] at h
        rw [← h.1, ← h.2, h0] at e2
        have := hs'.1
        omega
  · intro hno
    rcases h4 k i hs with h | ⟨k', i', hs', hne, _, _, hf⟩
    · exact h
    · exact absurd ⟨k', i', hs', hne, hf⟩ hno

/-- Triangles (1,2,3), an unused slot, and (2,4,3): the common edge {2,3} is linked. -/
def exTri : TriMesh where
  nt := 3
  v := fun k i => if k = 1 then [1, 2, 3].getD i 0 else if k = 2 then 0 else [2, 4, 3].getD i 0

example : (hashTria exTri 1000).map (fun a => [1, 2, 3, 4, 5, 6, 7, 8, 9].map a) =
    some [10, 0, 0, 0, 0, 0, 0, 3, 0] := by decide

/-! ### Prisms -/

/-- The vertices of face `i` of a prism (0: bottom, 1: top triangle; 2, 3, 4: quadrilaterals). -/
def PriMesh.faceVerts (m : PriMesh) (k : Nat) : Nat → Multiset Nat
  | 0 => {m.v k 0, m.v k 1, m.v k 2}
  | 1 => {m.v k 3, m.v k 4, m.v k 5}
  | 2 => {m.v k 1, m.v k 2, m.v k 4, m.v k 5}
  | 3 => {m.v k 0, m.v k 2, m.v k 3, m.v k 5}
  | _ => {m.v k 0, m.v k 1, m.v k 3, m.v k 4}

def PriMesh.Slot (m : PriMesh) (k i : Nat) : Prop := 1 ≤ k ∧ k ≤ m.np ∧ i < 5

theorem priHyp (m : PriMesh) {inival : Nat} (h : 5 * m.np < inival) :
    Hyp (priParams m inival) := by
  refine ⟨by simp [priParams], by simpa [priParams] using h, ?_, ?_, ?_⟩
  · intro l ll; simp only [priParams, beq_iff_eq]; exact Eq.symm
  · intro a b c; simp only [priParams, beq_iff_eq]; exact Eq.trans
  · intro l ll; simp only [priParams, beq_iff_eq]
    intro h; rw [h]

/-- **C42 (partial).** Prism adjacency is symmetric, links only (prism, face) pairs whose faces
have the same smallest, second smallest and largest vertex, and never leaves two such pairs
unlinked. Missing with respect to the full statement: equality of the vertex sets of linked
faces, which is false in general (`C42_prism_confusion`). -/
theorem C42_prism_adjacency_partial (m : PriMesh) (inival : Nat) (hN : 5 * m.np < inival) :
    ∃ adja, hashPrism m inival = some adja ∧
      (∀ k i, m.Slot k i →
        adja (5 * (k - 1) + 1 + i) = 0 ∨
        ∃ k' i', m.Slot k' i' ∧ (k', i') ≠ (k, i) ∧
          adja (5 * (k - 1) + 1 + i) = ((5 * k' + i' : Nat) : Int) ∧
          adja (5 * (k' - 1) + 1 + i') = ((5 * k + i : Nat) : Int) ∧
          pface m k i = pface m k' i') ∧
      (∀ k i k' i', m.Slot k i → m.Slot k' i' → (k, i) ≠ (k', i') →
        pface m k i = pface m k' i' →
        ¬ (adja (5 * (k - 1) + 1 + i) = 0 ∧ adja (5 * (k' - 1) + 1 + i') = 0)) := by
  obtain ⟨adj, h1, h2⟩ := build_spec (priHyp m hN)
  have hV : ∀ k i, m.Slot k i → V (priParams m inival) (5 * m.np) (5 * (k - 1) + 1 + i) :=
    fun k i h => ⟨by omega, slot_le h.1 h.2.1 h.2.2, rfl⟩
  have hS : ∀ k i k' i', m.Slot k i → m.Slot k' i' →
      ((priParams m inival).same (5 * (k - 1) + 1 + i) (5 * (k' - 1) + 1 + i') = true ↔
      pface m k i = pface m k' i') := by
    intro k i k' i' h h'
    simp only [priParams, beq_iff_eq]
    rw [(slot_div h.1 h.2.2).1, (slot_div h.1 h.2.2).2, (slot_div h'.1 h'.2.2).1,
      (slot_div h'.1 h'.2.2).2]
  refine ⟨adj, h1, ?_, ?_⟩
  · intro k i hs
    rcases h2.pair _ (hV k i hs) with h | ⟨s', p1, p2, p3, p4, p5⟩
    · exact Or.inl h
    · right
      have hs1 : 1 ≤ s' := p1.1
      have hslot : m.Slot ((s' - 1) / 5 + 1) ((s' - 1) % 5) :=
        ⟨by omega, div_le (by omega) hs1 p1.2.1, Nat.mod_lt _ (by omega)⟩
      have hse := slot_of (d := 5) (by omega) hs1
      refine ⟨(s' - 1) / 5 + 1, (s' - 1) % 5, hslot, ?_, ?_, ?_, ?_⟩
      · intro e
        simp only [Prod.mk.injEq] at e
        apply p2; rw [hse, e.1, e.2]
      · rw [p4]; rfl
      · rw [← hse, p5]
        exact code_slot hs.1 hs.2.2
      · rw [← hS _ _ _ _ hs hslot, ← hse]; exact p3
  · rintro k i k' i' hs hs' hne hf ⟨e1, e2⟩
    refine h2.maximal _ _ (hV _ _ hs) (hV _ _ hs') ?_ ((hS _ _ _ _ hs hs').2 hf) e1 e2
    intro e
    have := slot_inj hs.1 hs.2.2 hs'.1 hs'.2.2 e
    exact hne (by rw [this.1, this.2])

/-- The triple compared by the code is determined by the vertex set of the face, for faces of the
same kind with distinct vertices: equal faces are always recognised. -/
theorem pface_of_faceVerts_tri (m : PriMesh) {k i k' i' : Nat} (hi : i < 2) (hi' : i' < 2) :
    pface m k i = pface m k' i' ↔ m.faceVerts k i = m.faceVerts k' i' := by
  have hf : ∀ k i, i < 2 → m.faceVerts k i =
      {m.v k (idirPr i).1, m.v k (idirPr i).2.1, m.v k (idirPr i).2.2.1} := by
    intro k i hi
    interval_cases i
    · rfl
    · show ({m.v k 3, m.v k 4, m.v k 5} : Multiset Nat) = {m.v k 3, m.v k 5, m.v k 4}
      rw [mset3_iff]; simp
  rw [hf k i hi, hf k' i' hi', ← min_max_sum3]
  simp only [pface, hi, hi', if_true, Prod.mk.injEq]
  generalize m.v k (idirPr i).1 = a
  generalize m.v k (idirPr i).2.1 = b
  generalize m.v k (idirPr i).2.2.1 = c
  generalize m.v k' (idirPr i').1 = d
  generalize m.v k' (idirPr i').2.1 = e
  generalize m.v k' (idirPr i').2.2.1 = f
  have e1 : ∀ a b c : Nat, Nat.min (Nat.min a b) c = Nat.min a (Nat.min b c) := Nat.min_assoc
  have e2 : ∀ a b c : Nat, Nat.max (Nat.max a b) c = Nat.max a (Nat.max b c) := Nat.max_assoc
  have hb : ∀ a b c : Nat, Nat.min a (Nat.min b c) + Nat.max a (Nat.max b c) ≤ a + b + c := by
    intro a b c
    simp only [min_def', max_def']
    split_ifs <;> omega
  rw [e1, e1, e2, e2]
  have h1 := hb a b c
  have h2 := hb d e f
  omega

/-- Smallest, second smallest and largest element of a multiset, characterised by counting. -/
def IsMinSndMax (M : Multiset Nat) (t : Nat × Nat × Nat) : Prop :=
  (t.1 ∈ M ∧ ∀ x ∈ M, t.1 ≤ x) ∧
  (2 ≤ M.countP (· ≤ t.2.1) ∧ M.countP (· < t.2.1) ≤ 1) ∧
  (t.2.2 ∈ M ∧ ∀ x ∈ M, x ≤ t.2.2)

theorem IsMinSndMax.unique {M : Multiset Nat} {t t' : Nat × Nat × Nat} (h : IsMinSndMax M t)
    (h' : IsMinSndMax M t') : t = t' := by
  have key : ∀ s s' : Nat, 2 ≤ M.countP (· ≤ s) → M.countP (· < s') ≤ 1 → ¬ s < s' := by
    intro s s' h1 h2 hlt
    have : M.countP (· ≤ s) ≤ M.countP (· < s') := by
      rw [Multiset.countP_eq_card_filter, Multiset.countP_eq_card_filter]
      exact Multiset.card_le_card (Multiset.monotone_filter_right M (fun a ha => by omega))
    omega
  obtain ⟨⟨a1, a2⟩, ⟨b1, b2⟩, c1, c2⟩ := h
  obtain ⟨⟨a1', a2'⟩, ⟨b1', b2'⟩, c1', c2'⟩ := h'
  have h1 := key _ _ b1 b2'
  have h2 := key _ _ b1' b2
  have h3 := a2 _ a1'
  have h4 := a2' _ a1
  have h5 := c2 _ c1'
  have h6 := c2' _ c1
  ext1
  · omega
  · ext1 <;> omega

theorem quad_isMinSndMax (a b c e : Nat) : IsMinSndMax {a, b, c, e}
    (Nat.min (Nat.min a b) (Nat.min c e),
      Nat.min (Nat.min (Nat.max a b) (Nat.max c e)) (Nat.max (Nat.min a b) (Nat.min c e)),
      Nat.max (Nat.max a b) (Nat.max c e)) := by
  have cp : ∀ (p : Nat → Prop) [DecidablePred p], ({a, b, c, e} : Multiset Nat).countP p =
      (if p a then 1 else 0) + (if p b then 1 else 0) + (if p c then 1 else 0) +
        (if p e then 1 else 0) := by
    intro p _
    show (a ::ₘ b ::ₘ c ::ₘ e ::ₘ (0 : Multiset Nat)).countP p = _
    simp only [Multiset.countP_cons, Multiset.countP_zero]
    omega
  have e1 : ∀ x y : Nat, (x ≤ y ∧ Nat.min x y = x ∧ Nat.max x y = y) ∨
      (y ≤ x ∧ Nat.min x y = y ∧ Nat.max x y = x) := by
    intro x y; simp only [min_def', max_def']; split_ifs <;> omega
  unfold IsMinSndMax
  rw [cp, cp]
  simp only [Multiset.mem_cons, Multiset.insert_eq_cons, Multiset.mem_singleton, forall_eq_or_imp, forall_eq]
  rcases e1 a b with ⟨h1, p1, q1⟩ | ⟨h1, p1, q1⟩ <;> rcases e1 c e with ⟨h2, p2, q2⟩ | ⟨h2, p2, q2⟩ <;>
    rw [p1, p2, q1, q2] <;>
    (simp only [min_def', max_def']; refine ⟨⟨?_, ?_⟩, ⟨?_, ?_⟩, ?_, ?_⟩ <;> split_ifs <;> omega)

/-- Quadrilateral faces with the same vertex set give the same triple. -/
theorem pface_of_faceVerts_quad (m : PriMesh) {k i k' i' : Nat} (hi : 2 ≤ i) (hi' : 2 ≤ i')
    (h5 : i < 5) (h5' : i' < 5)
    (h : m.faceVerts k i = m.faceVerts k' i') : pface m k i = pface m k' i' := by
  have hq : ∀ k i, 2 ≤ i → i < 5 → IsMinSndMax (m.faceVerts k i) (pface m k i) := by
    intro k i h2 h5
    have hf : m.faceVerts k i = {m.v k (idirPr i).1, m.v k (idirPr i).2.1,
        m.v k (idirPr i).2.2.1, m.v k (idirPr i).2.2.2} := by
      have key : ∀ a b c e : Nat, ({a, e, b, c} : Multiset Nat) = {a, b, c, e} := by
        intro a b c e
        show (([a, e, b, c] : List Nat) : Multiset Nat) = ([a, b, c, e] : List Nat)
        rw [Multiset.coe_eq_coe]
        exact ((List.perm_append_comm (l₁ := [e]) (l₂ := [b, c]))).cons a
      have key2 : ∀ a b c e : Nat, ({a, b, e, c} : Multiset Nat) = {a, b, c, e} := by
        intro a b c e
        show (([a, b, e, c] : List Nat) : Multiset Nat) = ([a, b, c, e] : List Nat)
        rw [Multiset.coe_eq_coe]
        exact (((List.perm_append_comm (l₁ := [e]) (l₂ := [c]))).cons b).cons a
      interval_cases i
      · exact key _ _ _ _
      · show ({m.v k 0, m.v k 2, m.v k 3, m.v k 5} : Multiset Nat) = {m.v k 0, m.v k 2, m.v k 5, m.v k 3}
        exact key2 _ _ _ _
      · exact key _ _ _ _
    rw [hf]
    have h' : ¬ i < 2 := by omega
    simp only [pface, h', if_false]
    exact quad_isMinSndMax _ _ _ _
  exact (hq k i hi h5).unique (h ▸ hq k' i' hi' h5')

theorem pface_mem (m : PriMesh) {k i : Nat} (h5 : i < 5) (hn : (m.faceVerts k i).Nodup) :
    (pface m k i).1 ∈ m.faceVerts k i ∧ (pface m k i).2.1 ∈ m.faceVerts k i ∧
    (pface m k i).2.2 ∈ m.faceVerts k i ∧ (pface m k i).1 < (pface m k i).2.1 ∧
    (pface m k i).2.1 < (pface m k i).2.2 := by
  have tri : ∀ a b c : Nat, ({a, b, c} : Multiset Nat).Nodup →
      ∀ t, t = (Nat.min (Nat.min a b) c, a + b + c - Nat.min (Nat.min a b) c - Nat.max (Nat.max a b) c,
        Nat.max (Nat.max a b) c) →
      (t.1 = a ∨ t.1 = b ∨ t.1 = c) ∧ (t.2.1 = a ∨ t.2.1 = b ∨ t.2.1 = c) ∧
      (t.2.2 = a ∨ t.2.2 = b ∨ t.2.2 = c) ∧ t.1 < t.2.1 ∧ t.2.1 < t.2.2 := by
    intro a b c hn t ht
    subst ht
    simp only [Multiset.insert_eq_cons, Multiset.nodup_cons, Multiset.mem_cons,
      Multiset.mem_singleton, not_or] at hn
    obtain ⟨⟨h1, h2⟩, h3, _⟩ := hn
    simp only [min_def', max_def']
    refine ⟨?_, ?_, ?_, ?_, ?_⟩ <;> split_ifs <;> omega
  have quad : ∀ a b c e : Nat, a ≠ b → a ≠ c → a ≠ e → b ≠ c → b ≠ e → c ≠ e →
      ∀ t, t = (Nat.min (Nat.min a b) (Nat.min c e),
      Nat.min (Nat.min (Nat.max a b) (Nat.max c e)) (Nat.max (Nat.min a b) (Nat.min c e)),
      Nat.max (Nat.max a b) (Nat.max c e)) →
      (t.1 = a ∨ t.1 = b ∨ t.1 = c ∨ t.1 = e) ∧ (t.2.1 = a ∨ t.2.1 = b ∨ t.2.1 = c ∨ t.2.1 = e) ∧
      (t.2.2 = a ∨ t.2.2 = b ∨ t.2.2 = c ∨ t.2.2 = e) ∧ t.1 < t.2.1 ∧ t.2.1 < t.2.2 := by
    intro a b c e h1 h2 h3 h4 h5 h6 t ht
    subst ht
    have e1 : ∀ x y : Nat, (x ≤ y ∧ Nat.min x y = x ∧ Nat.max x y = y) ∨
        (y ≤ x ∧ Nat.min x y = y ∧ Nat.max x y = x) := by
      intro x y; simp only [min_def', max_def']; split_ifs <;> omega
    rcases e1 a b with ⟨h1, p1, q1⟩ | ⟨h1, p1, q1⟩ <;> rcases e1 c e with ⟨h2, p2, q2⟩ | ⟨h2, p2, q2⟩ <;>
      simp only [p1, p2, q1, q2] <;>
      (simp only [min_def', max_def']; refine ⟨?_, ?_, ?_, ?_, ?_⟩ <;> split_ifs <;> omega)
  interval_cases i
  · have := tri _ _ _ hn (pface m k 0) rfl
    simpa only [PriMesh.faceVerts, Multiset.insert_eq_cons, Multiset.mem_cons, Multiset.mem_singleton] using this
  · have h : ({m.v k 3, m.v k 5, m.v k 4} : Multiset Nat).Nodup := by
      have : ({m.v k 3, m.v k 5, m.v k 4} : Multiset Nat) = m.faceVerts k 1 := by
        show _ = ({m.v k 3, m.v k 4, m.v k 5} : Multiset Nat)
        rw [mset3_iff]; simp
      rw [this]; exact hn
    have := tri _ _ _ h (pface m k 1) rfl
    simp only [PriMesh.faceVerts, Multiset.insert_eq_cons, Multiset.mem_cons, Multiset.mem_singleton]
    omega
  all_goals
    simp only [PriMesh.faceVerts, Multiset.insert_eq_cons, Multiset.nodup_cons, Multiset.mem_cons,
      Multiset.mem_singleton, not_or] at hn
    obtain ⟨⟨h1, h2, h3⟩, ⟨h4, h5⟩, h6, _⟩ := hn
    simp only [PriMesh.faceVerts, Multiset.insert_eq_cons, Multiset.mem_cons, Multiset.mem_singleton]
  · have := quad (m.v k 1) (m.v k 4) (m.v k 5) (m.v k 2) (by omega) (by omega) (by omega) (by omega)
      (by omega) (by omega) (pface m k 2) rfl
    omega
  · have := quad (m.v k 0) (m.v k 2) (m.v k 5) (m.v k 3) (by omega) (by omega) (by omega) (by omega)
      (by omega) (by omega) (pface m k 3) rfl
    omega
  · have := quad (m.v k 0) (m.v k 3) (m.v k 4) (m.v k 1) (by omega) (by omega) (by omega) (by omega)
      (by omega) (by omega) (pface m k 4) rfl
    omega

/-- A conforming prism mesh: faces have distinct vertices and two faces with three vertices in
common are the same face. -/
structure PriMesh.Conforming (m : PriMesh) : Prop where
  nodup : ∀ k i, m.Slot k i → (m.faceVerts k i).Nodup
  meet : ∀ k i k' i', m.Slot k i → m.Slot k' i' → ∀ a b c, a < b → b < c →
    a ∈ m.faceVerts k i → b ∈ m.faceVerts k i → c ∈ m.faceVerts k i →
    a ∈ m.faceVerts k' i' → b ∈ m.faceVerts k' i' → c ∈ m.faceVerts k' i' →
    m.faceVerts k i = m.faceVerts k' i'

/-- **C42.** On a conforming prism mesh the adjacency is symmetric, links exactly faces with the
same vertices, and never leaves two pairs with the same face unlinked. -/
theorem C42_prism_adjacency_conforming (m : PriMesh) (inival : Nat) (hN : 5 * m.np < inival)
    (hc : m.Conforming) :
    ∃ adja, hashPrism m inival = some adja ∧
      (∀ k i, m.Slot k i →
        adja (5 * (k - 1) + 1 + i) = 0 ∨
        ∃ k' i', m.Slot k' i' ∧ (k', i') ≠ (k, i) ∧
          adja (5 * (k - 1) + 1 + i) = ((5 * k' + i' : Nat) : Int) ∧
          adja (5 * (k' - 1) + 1 + i') = ((5 * k + i : Nat) : Int) ∧
          m.faceVerts k i = m.faceVerts k' i') ∧
      (∀ k i k' i', m.Slot k i → m.Slot k' i' → (k, i) ≠ (k', i') →
        m.faceVerts k i = m.faceVerts k' i' →
        ¬ (adja (5 * (k - 1) + 1 + i) = 0 ∧ adja (5 * (k' - 1) + 1 + i') = 0)) := by
  obtain ⟨adj, h1, h2, h3⟩ := C42_prism_adjacency_partial m inival hN
  have card : ∀ k i, i < 5 → Multiset.card (m.faceVerts k i) = if i < 2 then 3 else 4 := by
    intro k i hi; interval_cases i <;> rfl
  refine ⟨adj, h1, ?_, ?_⟩
  · intro k i hs
    rcases h2 k i hs with h | ⟨k', i', hs', hne, e1, e2, e3⟩
    · exact Or.inl h
    · refine Or.inr ⟨k', i', hs', hne, e1, e2, ?_⟩
      obtain ⟨a1, a2, a3, a4, a5⟩ := pface_mem m hs.2.2 (hc.nodup k i hs)
      obtain ⟨b1, b2, b3, _, _⟩ := pface_mem m hs'.2.2 (hc.nodup k' i' hs')
      rw [← e3] at b1 b2 b3
      exact hc.meet k i k' i' hs hs' _ _ _ a4 a5 a1 a2 a3 b1 b2 b3
  · intro k i k' i' hs hs' hne hf
    refine h3 k i k' i' hs hs' hne ?_
    have hcard := congrArg Multiset.card hf
    rw [card k i hs.2.2, card k' i' hs'.2.2] at hcard
    by_cases hi : i < 2
    · have hi' : i' < 2 := by
        by_contra h; simp [hi, h] at hcard
      exact (pface_of_faceVerts_tri m hi hi').2 hf
    · have hi' : ¬ i' < 2 := by
        intro h; simp [hi, h] at hcard
      exact pface_of_faceVerts_quad m (by omega) (by omega) hs.2.2 hs'.2.2 hf

/-- Two prisms stacked on the quadrilateral {2,3,5,6}. -/
def exPri : PriMesh where
  np := 2
  v := fun k i => if k = 1 then [1, 2, 3, 4, 5, 6].getD i 0 else [3, 2, 7, 6, 5, 8].getD i 0

example : (hashPrism exPri 1000).map (fun a => [1, 2, 3, 4, 5, 6, 7, 8, 9, 10].map a) =
    some [0, 0, 14, 0, 0, 0, 0, 0, 0, 7] := by decide

example : exPri.Conforming := by
  have hs : ∀ k i, exPri.Slot k i → (k, i) ∈ [(1,0),(1,1),(1,2),(1,3),(1,4),(2,0),(2,1),(2,2),(2,3),(2,4)] := by
    rintro k i ⟨h1, h2, h3⟩
    have h2 : k ≤ 2 := h2
    interval_cases k <;> interval_cases i <;> decide
  have hb : ∀ k i, exPri.Slot k i → ∀ x ∈ exPri.faceVerts k i, x < 9 := by
    intro k i h
    have : ∀ p ∈ [(1,0),(1,1),(1,2),(1,3),(1,4),(2,0),(2,1),(2,2),(2,3),(2,4)],
      ∀ x ∈ exPri.faceVerts p.1 p.2, x < 9 := by decide
    exact this (k, i) (hs k i h)
  constructor
  · intro k i h
    have : ∀ p ∈ [(1,0),(1,1),(1,2),(1,3),(1,4),(2,0),(2,1),(2,2),(2,3),(2,4)],
      (exPri.faceVerts p.1 p.2).Nodup := by decide
    exact this (k, i) (hs k i h)
  · intro k i k' i' h h' a b c hab hbc a1 b1 c1 a2 b2 c2
    have key : ∀ p ∈ [(1,0),(1,1),(1,2),(1,3),(1,4),(2,0),(2,1),(2,2),(2,3),(2,4)],
      ∀ q ∈ [(1,0),(1,1),(1,2),(1,3),(1,4),(2,0),(2,1),(2,2),(2,3),(2,4)],
      ∀ a ∈ exPri.faceVerts p.1 p.2, ∀ b ∈ exPri.faceVerts p.1 p.2, ∀ c ∈ exPri.faceVerts p.1 p.2,
        a < b → b < c → a ∈ exPri.faceVerts q.1 q.2 → b ∈ exPri.faceVerts q.1 q.2 →
        c ∈ exPri.faceVerts q.1 q.2 → exPri.faceVerts p.1 p.2 = exPri.faceVerts q.1 q.2 := by
      decide
    exact key (k, i) (hs k i h) (k', i') (hs k' i' h') a a1 b b1 c c1 hab hbc a2 b2 c2

/-- **C42, counterexample.** A triangular and a quadrilateral face with different vertex sets can
be linked: the code compares smallest, second smallest and largest vertex only. -/
theorem C42_prism_confusion : ∃ m : PriMesh, ∃ adja, hashPrism m 1000 = some adja ∧
    m.Slot 1 0 ∧ m.Slot 2 4 ∧ m.faceVerts 1 0 ≠ m.faceVerts 2 4 ∧
    adja (5 * (1 - 1) + 1 + 0) = ((5 * 2 + 4 : Nat) : Int) := by
  refine ⟨⟨2, fun k i => if k = 1 then [1, 2, 9, 20, 21, 22].getD i 0 else [1, 2, 30, 5, 9, 31].getD i 0⟩,
    _, rfl, ⟨by decide, by decide, by decide⟩, ⟨by decide, by decide, by decide⟩, by decide, by decide⟩

end Mmg.Adj
