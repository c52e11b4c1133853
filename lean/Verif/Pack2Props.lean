/- Properties C12 (the final 2D packing is an order-preserving renumbering) and C56 (edges of the output mesh) of
`Pack2Model`. -/
import Verif.Pack2Edges
import Mathlib.Order.Interval.Set.Basic
import Mathlib.Data.Set.Function
import Mathlib.Order.Monotone.Defs
import Mathlib.Order.Interval.Finset.Nat
import Mathlib.Data.Finset.Card

namespace Mmg.Pack2

open Mmg.Pack3 (upd upd_same upd_ne Elt eok Els packEls packEls_spec ValE RenumE has REF REQ BDY CRN NOSURF NUL)

variable {α β K : Type}

/-! ### Specification -/

/-- Point `i` is used. -/
def Used (M : Mesh α β K) (i : Nat) : Prop := 1 ≤ i ∧ i ≤ M.np ∧ (M.pt i).tag.toNat < 32768

/-- Triangle `k` is valid. -/
def ValT (M : Mesh α β K) (k : Nat) : Prop := 1 ≤ k ∧ k ≤ M.nt ∧ 0 < (M.tri k).v 0

/-- Quadrilateral `k` is valid. -/
def ValQ (M : Mesh α β K) (k : Nat) : Prop := 1 ≤ k ∧ k ≤ M.quads.n ∧ 0 < (M.quads.el k).v 0

/-- Side `i` of triangle `k` is joined to side `j` of triangle `c`. -/
def Joined (M : Mesh α β K) (k i c j : Nat) : Prop := M.adja (tidx k i) = 3 * c + j

/-- Valid elements refer to used points, and the adjacency of triangles is symmetric. -/
structure Ready (M : Mesh α β K) : Prop where
  tri : ∀ k, ValT M k → ∀ i < 3, Used M ((M.tri k).v i)
  quad : ∀ k, ValQ M k → ∀ i < 4, Used M ((M.quads.el k).v i)
  adja : ∀ k, ValT M k → ∀ i < 3, M.adja (tidx k i) ≠ 0 → ∃ c j, j < 3 ∧ ValT M c ∧ c ≠ k ∧ Joined M k i c j ∧
    Joined M c j k i

/-- Tags without those of the option `-nosurf`. -/
def plain (t : BitVec 16) : BitVec 16 := if t &&& NOSURF ≠ 0 then t &&& ~~~(NOSURF ||| REQ) else t

/-- `M'` is `M` with points renumbered by `new`, triangles by `τ` and quadrilaterals by `κ`, the first two preserving the
order. -/
structure Consistent (M M' : Mesh α β K) (new τ κ : Nat → Nat) : Prop where
  points : Set.BijOn new {i | Used M i} (Set.Icc 1 M'.np)
  order : StrictMonoOn new {i | Used M i}
  point : ∀ i, Used M i → (M'.pt (new i)).dat = (M.pt i).dat ∧ (M'.pt (new i)).tag = plain (M.pt i).tag
  sol : ∀ s, M.sol = some s → ∃ s', M'.sol = some s' ∧ s'.size = s.size ∧ s'.np = M'.np ∧
    ∀ i, Used M i → ∀ c < s.size, s'.m (new i * s.size + c) = s.m (i * s.size + c)
  met : ∀ s, M.met = some s → ∃ s', M'.met = some s' ∧ s'.size = s.size ∧
    ∀ i, Used M i → ∀ c < s.size, s'.m (new i * s.size + c) = s.m (i * s.size + c)
  tris : Set.BijOn τ {k | ValT M k} (Set.Icc 1 M'.nt)
  triOrder : StrictMonoOn τ {k | ValT M k}
  tri : ∀ k, ValT M k → (M'.tri (τ k)).dat.ref = (M.tri k).dat.ref ∧ (M'.tri (τ k)).dat.dat = (M.tri k).dat.dat ∧
    ∀ i < 3, (M'.tri (τ k)).v i = new ((M.tri k).v i) ∧ (M'.tri (τ k)).dat.edg i = (M.tri k).dat.edg i ∧
      (M'.tri (τ k)).dat.tag i = plain ((M.tri k).dat.tag i)
  noTri : ∀ k, M'.nt < k → k ≤ M.nt → (M'.tri k).v 0 = 0
  free : ∀ k, ValT M k → ∀ i < 3, M.adja (tidx k i) = 0 → M'.adja (tidx (τ k) i) = 0
  joined : ∀ k, ValT M k → ∀ i < 3, ∀ c j, ValT M c → j < 3 → Joined M k i c j → Joined M' (τ k) i (τ c) j
  quads : Set.BijOn κ {k | ValQ M k} {k | ValQ M' k}
  quad : ∀ k, ValQ M k → (M'.quads.el (κ k)).dat = (M.quads.el k).dat ∧
    ∀ i < 4, (M'.quads.el (κ k)).v i = new ((M.quads.el k).v i)

/-- Side `i` of triangle `k` has to be an edge of the output: it has no neighbour, or the neighbour has a lower reference,
or it is a required or corner side inside a domain, or (open boundaries) it is a reference or boundary side. -/
def TriSide (opn : Bool) (M : Mesh α β K) (k i : Nat) : Prop :=
  ValT M k ∧ i < 3 ∧ (M.adja (tidx k i) / 3 = 0 ∨
    (M.tri (M.adja (tidx k i) / 3)).dat.ref < (M.tri k).dat.ref ∨
    ((M.tri k).dat.ref = (M.tri (M.adja (tidx k i) / 3)).dat.ref ∧ plain ((M.tri k).dat.tag i) &&& (CRN ||| REQ) ≠ 0) ∨
    (opn = true ∧ plain ((M.tri k).dat.tag i) &&& (REF ||| BDY) ≠ 0))

/-- The same for a quadrilateral; `c` is the neighbour, negative for a triangle. -/
def QuadSide (opn : Bool) (M : Mesh α β K) (k i : Nat) : Prop :=
  ValQ M k ∧ i < 4 ∧ 0 ≤ (M.adjq (qidx k i)).tdiv 4 ∧ ((M.adjq (qidx k i)).tdiv 4 = 0 ∨
    (M.quads.el ((M.adjq (qidx k i)).tdiv 4).toNat).dat.ref < (M.quads.el k).dat.ref ∨
    ((M.quads.el k).dat.ref = (M.quads.el ((M.adjq (qidx k i)).tdiv 4).toNat).dat.ref ∧
      (M.quads.el k).dat.tag i &&& (CRN ||| REQ) ≠ 0) ∨
    (opn = true ∧ (M.quads.el k).dat.tag i &&& (REF ||| BDY) ≠ 0))

/-- The first `n1` entries of the edge table are the triangle sides to be listed, each once, the others those of the
quadrilaterals; `φ` and `ψ` give the positions. -/
structure Edges (opn : Bool) (M M' : Mesh α β K) (new τ : Nat → Nat) (n1 : Nat) (φ ψ : Nat × Nat → Nat) : Prop where
  tri : Set.BijOn φ {x | TriSide opn M x.1 x.2} (Set.Icc 1 n1)
  quad : Set.BijOn ψ {x | QuadSide opn M x.1 x.2} (Set.Icc (n1 + 1) M'.na)
  le : n1 ≤ M'.na
  triEdge : ∀ k i, TriSide opn M k i → M'.edge (φ (k, i)) = ⟨new ((M.tri k).v (inxt2 i)), new ((M.tri k).v (iprv2 i)),
    3 * τ k + i, (M.tri k).dat.edg i, plain ((M.tri k).dat.tag i)⟩
  quadEdge : ∀ k i, QuadSide opn M k i → (M'.edge (ψ (k, i))).a = new ((M.quads.el k).v (idirq i).1) ∧
    (M'.edge (ψ (k, i))).b = new ((M.quads.el k).v (idirq i).2) ∧ (M'.edge (ψ (k, i))).ref = (M.quads.el k).dat.edg i ∧
    (M'.edge (ψ (k, i))).tag = (M.quads.el k).dat.tag i

/-! ### Proof -/

theorem untag_eq (t : BitVec 16) : untag t = plain t := by
  unfold untag plain has
  by_cases h : t &&& NOSURF ≠ 0
  · rw [if_pos (by simpa using h), if_pos h, BitVec.and_assoc, show ~~~NOSURF &&& ~~~REQ = ~~~(NOSURF ||| REQ) by decide]
  · rw [if_neg (by simpa using h), if_neg h]

theorem used_iff (M : Mesh α β K) (i : Nat) : Used M i ↔ 1 ≤ i ∧ i ≤ M.np ∧ vok (M.pt i) = true := by
  unfold Used vok; simp

theorem valT_iff (M : Mesh α β K) (k : Nat) : ValT M k ↔ 1 ≤ k ∧ k ≤ M.nt ∧ eok (M.tri k) = true := by
  unfold ValT eok; simp

theorem valQ_iff (M : Mesh α β K) (k : Nat) : ValQ M k ↔ ValE M.quads k := by
  unfold ValQ ValE eok; simp

theorem has_or (t a b : BitVec 16) : (has t a || has t b) = has t (a ||| b) := by
  unfold has
  rw [Bool.eq_iff_iff]
  simp only [ne_eq, decide_not, Bool.or_eq_true, Bool.not_eq_true', decide_eq_false_iff_not]
  rw [← not_and_or]
  refine not_congr ?_
  constructor
  · rintro ⟨h1, h2⟩
    rw [BitVec.and_or_distrib_left, h1, h2]; rfl
  · intro h
    rw [BitVec.and_or_distrib_left] at h
    exact BitVec.or_eq_zero_iff.1 h

theorem lists_iff (opn nb : Bool) (r r1 : Int) (t : BitVec 16) : lists opn nb r r1 t = true ↔
    nb = false ∨ r1 < r ∨ (r = r1 ∧ t &&& (CRN ||| REQ) ≠ 0) ∨ (opn = true ∧ t &&& (REF ||| BDY) ≠ 0) := by
  unfold lists sin
  rw [has_or, has_or]
  unfold has
  simp only [Bool.or_eq_true, Bool.and_eq_true, decide_eq_true_eq, Bool.not_eq_true', gt_iff_lt, or_assoc]
  exact Iff.rfl

theorem idx_bij {γ : Type} [BEq γ] [LawfulBEq γ] {L : List γ} (h : L.Nodup) (d : Nat) :
    Set.BijOn (fun x => d + 1 + L.idxOf x) {x | x ∈ L} (Set.Icc (d + 1) (d + L.length)) := by
  refine ⟨?_, ?_, ?_⟩
  · intro x hx
    have := List.idxOf_lt_length_of_mem hx
    exact Set.mem_Icc.2 ⟨by dsimp only; omega, by dsimp only; omega⟩
  · intro x hx y hy he
    dsimp only at he
    have he : L.idxOf x = L.idxOf y := by omega
    have h1 := List.getElem_idxOf (List.idxOf_lt_length_of_mem hx)
    have h2 := List.getElem_idxOf (List.idxOf_lt_length_of_mem hy)
    rw [← h1, ← h2]
    simp only [he]
  · intro j hj
    rw [Set.mem_Icc] at hj
    have hlt : j - (d + 1) < L.length := by omega
    refine ⟨L[j - (d + 1)], List.getElem_mem hlt, ?_⟩
    dsimp only
    rw [h.idxOf_getElem]
    omega

theorem sidesOf_congr {ok : Nat → Bool} {p p' : Nat → Nat → Bool} {sides : List Nat} {n : Nat}
    (h : ∀ k, 1 ≤ k → k ≤ n → ok k = true → ∀ i ∈ sides, p k i = p' k i) :
    sidesOf ok p sides n = sidesOf ok p' sides n := by
  induction n with
  | zero => rfl
  | succ n ih =>
    rw [sidesOf_succ, sidesOf_succ, ih (fun k h1 h2 => h k h1 (by omega))]
    congr 1
    split_ifs with hv
    · congr 1
      exact List.filter_congr (fun i hi => h (n + 1) (by omega) (le_refl _) hv i hi)
    · rfl

theorem inxt2_lt (i : Nat) : inxt2 i < 3 := by unfold inxt2; split <;> omega
theorem iprv2_lt (i : Nat) : iprv2 i < 3 := by unfold iprv2; split <;> omega
theorem idirq_lt (i : Nat) : (idirq i).1 < 4 ∧ (idirq i).2 < 4 := by unfold idirq; split <;> exact ⟨by decide, by decide⟩

theorem mem_nil_iff {γ : Type} (L : List γ) : L.length = 0 ↔ ∀ x, x ∉ L := by
  rw [List.length_eq_zero_iff, List.eq_nil_iff_forall_not_mem]

theorem pack_full (zp : α) (zt : Side β) (e0 : Nat → Edge) (opn mem : Bool) {M : Mesh α β K} (h : Ready M) :
    ∃ M' nc b new τ κ, pack zp zt e0 opn mem M = some (M', nc, b) ∧ Consistent M M' new τ κ ∧
      nc = ((Finset.Icc 1 M.np).filter fun i => (M.pt i).tag.toNat < 32768 ∧ (M.pt i).tag &&& CRN ≠ 0).card ∧
      (b = false ↔ mem = false ∧ ((∃ k i, TriSide opn M k i) ∨ ∃ k i, QuadSide opn M k i)) ∧
      (b = true → ∃ n1 φ ψ, Edges opn M M' new τ n1 φ ψ) ∧ (b = false → M'.na = 0) := by
  -- points
  have hnum := number_spec M.pt M.np
  have hvn : (fun j => vok ((number M.np M.pt).2.2 j)) = fun j => vok (M.pt j) := funext (vok_number M.pt M.np)
  have hpt1 : ∀ i, Used M i → (number M.np M.pt).2.2 i = numbered (fun j => vok (M.pt j)) M.pt i := by
    intro i hi
    rw [hnum]
    exact if_pos ((used_iff M i).1 hi)
  have htmp : ∀ i, Used M i → ((number M.np M.pt).2.2 i).tmp = rank (fun j => vok (M.pt j)) i := by
    intro i hi; rw [hpt1 i hi]; rfl
  have hnc : (number M.np M.pt).2.1 =
      ((Finset.Icc 1 M.np).filter fun i => (M.pt i).tag.toNat < 32768 ∧ (M.pt i).tag &&& CRN ≠ 0).card := by
    rw [hnum]
    dsimp only
    rw [List.countP_eq_length_filter, ← List.toFinset_card_of_nodup ((List.nodup_range').filter _)]
    congr 1
    ext x
    rw [List.mem_toFinset, List.mem_filter, List.mem_range'_1, Finset.mem_filter, Finset.mem_Icc]
    unfold vok has
    simp only [Bool.and_eq_true, decide_eq_true_eq]
    constructor
    · rintro ⟨a, b, c⟩; exact ⟨by omega, b, c⟩
    · rintro ⟨a, b, c⟩; exact ⟨by omega, b, c⟩
  obtain ⟨A, hA, hA1, hA2⟩ := packPts_spec zp (number M.np M.pt).2.2 M.np
  rw [hvn] at hA hA1
  have hvals : ∀ (size : Nat) (m : Nat → K), ∀ i, Used M i → ∀ c < size,
      packVals M.np (number M.np M.pt).2.2 size m (rank (fun j => vok (M.pt j)) i * size + c) = m (i * size + c) := by
    intro size m i hi c hc
    have h1 := (used_iff M i).1 hi
    have := packVals_spec (number M.np M.pt).2.2 size m M.np i h1.1 h1.2.1 (by rw [vok_number]; exact h1.2.2) c hc
    rw [hvn] at this
    exact this
  -- triangles
  have hcount := countTri_spec opn M.adja M.tri 0 M.nt
  rw [Nat.zero_add, ← length_sidesOf (fun k => eok (M.tri k)) (triListed opn M.tri M.adja)] at hcount
  have hek : (fun j => eok (cleanUpTo M.nt M.tri j)) = fun j => eok (M.tri j) := funext (cleanUpTo_eok M.nt M.tri)
  have hadj : AdjOK (fun j => eok (cleanUpTo M.nt M.tri j)) M.nt M.adja := by
    rw [hek]
    intro p p1 p2 p3 q hq h0
    obtain ⟨c, j, hj, hc, hcp, h1, h2⟩ := h.adja p ((valT_iff M p).2 ⟨p1, p2, p3⟩) q hq h0
    have hc' := (valT_iff M c).1 hc
    exact ⟨c, j, hj, h1, hc'.1, hc'.2.1, hc'.2.2, hcp, h2⟩
  obtain ⟨t1, t2, t3, t4, t5, t6⟩ := packTri_spec zt (number M.np M.pt).2.2 hadj
  rw [hek] at t1 t2 t3 t5 t6
  simp only [cleanUpTo_eok] at t3 t6
  have hcl : ∀ k, ValT M k → cleanUpTo M.nt M.tri k = cleaned (M.tri k) := fun k hk => if_pos ((valT_iff M k).1 hk)
  -- the edge table
  have hLT : sidesOf (fun k => eok (cleanUpTo M.nt M.tri k)) (fun k i =>
      lists opn (decide (M.adja (tidx k i) / 3 ≠ 0)) (cleanUpTo M.nt M.tri k).dat.ref
        (cleanUpTo M.nt M.tri (M.adja (tidx k i) / 3)).dat.ref ((cleanUpTo M.nt M.tri k).dat.tag i)) [0, 1, 2] M.nt =
      sidesOf (fun k => eok (M.tri k)) (triListed opn M.tri M.adja) [0, 1, 2] M.nt := by
    rw [hek]
    apply sidesOf_congr
    intro k k1 k2 k3 i hi
    have hi3 : i < 3 := by
      have : ∀ x ∈ [0, 1, 2], x < 3 := by decide
      exact this i hi
    unfold triListed
    rw [cleanUpTo_ref, cleanUpTo_ref, hcl k ((valT_iff M k).2 ⟨k1, k2, k3⟩)]
    show lists _ _ _ _ (if i < 3 then _ else _) = _
    rw [if_pos hi3]
  have hfT := fillTri_spec opn (cleanUpTo M.nt M.tri) M.adja M.nt
  rw [hLT, hek] at hfT
  have hmemT : ∀ x : Nat × Nat, x ∈ sidesOf (fun k => eok (M.tri k)) (triListed opn M.tri M.adja) [0, 1, 2] M.nt ↔
      TriSide opn M x.1 x.2 := by
    rintro ⟨k, i⟩
    rw [mem_sidesOf]
    unfold TriSide
    rw [valT_iff]
    dsimp only
    unfold triListed
    rw [lists_iff, untag_eq]
    have : i ∈ [0, 1, 2] ↔ i < 3 := by
      simp only [List.mem_cons, List.not_mem_nil, or_false]; omega
    rw [this]
    simp only [ne_eq, decide_not, Bool.not_eq_false', decide_eq_true_eq, and_assoc]
  have hmemQ : ∀ x : Nat × Nat, x ∈ sidesOf (fun k => eok (M.quads.el k)) (quadListed opn M.quads.el M.adjq) [0, 1, 2, 3]
      M.quads.n ↔ QuadSide opn M x.1 x.2 := by
    rintro ⟨k, i⟩
    rw [mem_sidesOf]
    unfold QuadSide
    rw [valQ_iff]
    dsimp only
    unfold quadListed ValE
    rw [Bool.and_eq_true, lists_iff]
    have : i ∈ [0, 1, 2, 3] ↔ i < 4 := by
      simp only [List.mem_cons, List.not_mem_nil, or_false]; omega
    rw [this]
    simp only [ne_eq, decide_not, Bool.not_eq_false', decide_eq_true_eq, and_assoc]
  have hndT := nodup_sidesOf (fun k => eok (M.tri k)) (triListed opn M.tri M.adja) (sides := [0, 1, 2]) (by decide) M.nt
  have hndQ := nodup_sidesOf (fun k => eok (M.quads.el k)) (quadListed opn M.quads.el M.adjq) (sides := [0, 1, 2, 3])
    (by decide) M.quads.n
  have hcQ := countQuad_spec opn M.quads.el M.adjq M.quads.n
  have hfQ := fillQuad_spec opn M.quads.el M.adjq M.quads.n
  generalize hLTd : sidesOf (fun k => eok (M.tri k)) (triListed opn M.tri M.adja) [0, 1, 2] M.nt = LT at *
  generalize hLQd : sidesOf (fun k => eok (M.quads.el k)) (quadListed opn M.quads.el M.adjq) [0, 1, 2, 3] M.quads.n = LQ at *
  -- quadrilaterals
  obtain ⟨κ, hκ⟩ := packEls_spec M.quads
  -- the run
  obtain ⟨R, hR⟩ : ∃ R, pack zp zt e0 opn mem M = R := ⟨_, rfl⟩
  have hrun := hR
  unfold pack at hrun
  dsimp only at hrun
  rw [hcount] at hrun
  dsimp only at hrun
  rw [hcQ, hfT, hfQ] at hrun
  dsimp only at hrun
  obtain ⟨a1, a2, a3, a4⟩ := pushAll_spec (LT.length + LQ.length)
    (LT.map fun x => triEdge (cleanUpTo M.nt M.tri) x.1 (rank (fun k => eok (M.tri k)) x.1) x.2) ⟨0, e0, false⟩
  generalize hT1 : pushAll (LT.length + LQ.length) ⟨0, e0, false⟩
    (LT.map fun x => triEdge (cleanUpTo M.nt M.tri) x.1 (rank (fun k => eok (M.tri k)) x.1) x.2) = T1 at *
  obtain ⟨b1, b2, b3, b4⟩ := pushAll_spec (LT.length + LQ.length)
    (LQ.map fun x => quadEdge M.quads.el x.1 (rank (fun k => eok (M.quads.el k)) x.1) x.2) T1
  generalize hT : pushAll (LT.length + LQ.length) T1
    (LQ.map fun x => quadEdge M.quads.el x.1 (rank (fun k => eok (M.quads.el k)) x.1) x.2) = T at *
  simp only [List.length_map, Nat.zero_add] at a1 a3 a4 b1 b3 b4
  have hbad : T.bad = false := b4 (a4 trivial (by omega)) (by omega)
  rw [hbad, Bool.and_false, if_neg (by simp)] at hrun
  generalize hna : (if LT.length + LQ.length ≠ 0 ∧ mem = false then 0 else LT.length + LQ.length) = na at *
  rw [hA, t2] at hrun
  dsimp only at hrun
  refine ⟨_, _, _, rank fun j => vok (M.pt j), rank fun j => eok (M.tri j), κ, hR.trans hrun.symm, ?_, hnc, ?_, ?_, ?_⟩
  · refine ⟨?_, ?_, ?_, ?_, ?_, ?_, ?_, ?_, ?_, ?_, ?_, ?_, ?_⟩
    · refine ⟨?_, ?_, ?_⟩
      · intro i hi
        have h1 := (used_iff M i).1 hi
        exact Set.mem_Icc.2 ⟨rank_pos _ h1.1 h1.2.2, rank_mono _ h1.2.1⟩
      · intro i hi j hj he
        exact rank_inj _ ((used_iff M i).1 hi).2.2 ((used_iff M j).1 hj).2.2 he
      · intro j hj
        obtain ⟨a, p, q, r, e⟩ := rank_surj (fun j => vok (M.pt j)) M.np j (Set.mem_Icc.1 hj).1 (Set.mem_Icc.1 hj).2
        exact ⟨a, (used_iff M a).2 ⟨p, q, r⟩, e⟩
    · intro i _ j hj hij
      exact rank_lt _ hij ((used_iff M j).1 hj).2.2
    · intro i hi
      have h1 := (used_iff M i).1 hi
      have h2 := hA1 i h1.1 h1.2.1 (by rw [vok_number]; exact h1.2.2)
      rw [hpt1 i hi] at h2
      have h3 := rank_pos (fun j => vok (M.pt j)) h1.1 h1.2.2
      have h4 := rank_mono (fun j => vok (M.pt j)) h1.2.1
      have h5 : (chainPts (rank (fun j => vok (M.pt j)) M.np) M.npmax A).2 (rank (fun j => vok (M.pt j)) i) =
          { numbered (fun j => vok (M.pt j)) M.pt i with tmp := 0 } := by
        unfold chainPts
        dsimp only
        by_cases hc : rank (fun j => vok (M.pt j)) M.np + 3 < M.npmax
        · rw [if_pos hc]
          dsimp only
          rw [if_neg (by omega), if_pos ⟨h3, h4⟩, h2]
        · rw [if_neg hc]
          dsimp only
          rw [if_pos ⟨h3, h4⟩, h2]
      dsimp only
      rw [h5]
      exact ⟨rfl, untag_eq _⟩
    · intro s hs
      refine ⟨⟨s.size, rank (fun j => vok (M.pt j)) M.np, packVals M.np (number M.np M.pt).2.2 s.size s.m⟩,
        by dsimp only; rw [hs]; rfl, rfl, rfl, hvals s.size s.m⟩
    · intro s hs
      refine ⟨⟨s.size, s.np, packVals M.np (number M.np M.pt).2.2 s.size s.m⟩, by dsimp only; rw [hs]; rfl, rfl, hvals s.size s.m⟩
    · refine ⟨?_, ?_, ?_⟩
      · intro i hi
        have h1 := (valT_iff M i).1 hi
        exact Set.mem_Icc.2 ⟨rank_pos _ h1.1 h1.2.2, rank_mono _ h1.2.1⟩
      · intro i hi j hj he
        exact rank_inj _ ((valT_iff M i).1 hi).2.2 ((valT_iff M j).1 hj).2.2 he
      · intro j hj
        obtain ⟨a, p, q, r, e⟩ := rank_surj (fun j => eok (M.tri j)) M.nt j (Set.mem_Icc.1 hj).1 (Set.mem_Icc.1 hj).2
        exact ⟨a, (valT_iff M a).2 ⟨p, q, r⟩, e⟩
    · intro i _ j hj hij
      exact rank_lt _ hij ((valT_iff M j).1 hj).2.2
    · intro k hk
      have h1 := (valT_iff M k).1 hk
      have h2 := t3 k h1.1 h1.2.1 h1.2.2
      have h3 := rank_pos (fun j => eok (M.tri j)) h1.1 h1.2.2
      have h4 := rank_mono (fun j => eok (M.tri j)) h1.2.1
      have h5 : (chainTri (rank (fun j => eok (M.tri j)) M.nt) M.ntmax (packTri zt (number M.np M.pt).2.2 M.nt
          (cleanUpTo M.nt M.tri) M.adja).tri).2 (rank (fun j => eok (M.tri j)) k) =
          renumV (number M.np M.pt).2.2 3 (cleaned (M.tri k)) := by
        unfold chainTri
        split_ifs
        · dsimp only
          rw [if_neg (by omega), h2, hcl k hk]
        · dsimp only
          rw [h2, hcl k hk]
      dsimp only
      rw [h5]
      refine ⟨rfl, rfl, fun i hi => ⟨?_, rfl, ?_⟩⟩
      · show (if i < 3 then ((number M.np M.pt).2.2 ((M.tri k).v i)).tmp else _) = _
        rw [if_pos hi, htmp _ (h.tri k hk i hi)]
      · show (if i < 3 then untag _ else _) = _
        rw [if_pos hi, untag_eq]
    · intro k h1 h2
      have h3 := t5 k h1 h2
      have h3 : (((packTri zt (number M.np M.pt).2.2 M.nt (cleanUpTo M.nt M.tri) M.adja).tri) k).v 0 = 0 := by
        unfold eok at h3
        have := of_decide_eq_false h3
        omega
      dsimp only
      unfold chainTri
      split_ifs
      · dsimp only
        split_ifs
        · dsimp only
          rw [upd_ne _ _ (by omega)]
          exact h3
        · exact h3
      · exact h3
    · intro k hk i hi h0
      have h1 := (valT_iff M k).1 hk
      have h2 := t6 k h1.1 h1.2.1 h1.2.2 i hi
      have hpos : pos (fun j => eok (M.tri j)) M.nt k = rank (fun j => eok (M.tri j)) k := if_pos h1.2.1
      rw [hpos, h0] at h2
      exact h2
    · intro k hk i hi c j hc hj hJ
      have h1 := (valT_iff M k).1 hk
      have h1' := (valT_iff M c).1 hc
      have h2 := t6 k h1.1 h1.2.1 h1.2.2 i hi
      have hpos : ∀ c, c ≤ M.nt → pos (fun j => eok (M.tri j)) M.nt c = rank (fun j => eok (M.tri j)) c :=
        fun c hc => if_pos hc
      unfold Joined at hJ
      rw [hpos k h1.2.1, hJ, relabel_mk _ h1'.1 hj, hpos c h1'.2.1] at h2
      exact h2
    · have hv : ∀ (q : Els (Side β)) (k : Nat), ValE (⟨q.n, fun k => if 1 ≤ k ∧ k ≤ q.n ∧ eok (q.el k) = true then
          renumV (number M.np M.pt).2.2 4 (q.el k) else q.el k⟩ : Els (Side β)) k → ValE q k := by
        rintro q k ⟨k1, k2, k3⟩
        refine ⟨k1, k2, ?_⟩
        dsimp only at k2 k3
        by_cases hc : eok (q.el k) = true
        · exact hc
        · rw [if_neg (fun h => hc h.2.2)] at k3
          exact absurd k3 hc
      have hq : ∀ k, ValQ M k → 0 < ((renumV (number M.np M.pt).2.2 4 (M.quads.el k)).v 0) := by
        intro k hk
        show 0 < (if 0 < 4 then ((number M.np M.pt).2.2 ((M.quads.el k).v 0)).tmp else (M.quads.el k).v 0)
        have hu := h.quad k hk 0 (by decide)
        rw [if_pos (by decide), htmp _ hu]
        have h1 := (used_iff M _).1 hu
        exact rank_pos (fun j => vok (M.pt j)) h1.1 h1.2.2
      refine ⟨?_, ?_, ?_⟩
      · intro k hk
        have h1 := hκ.val k ((valQ_iff M k).1 hk)
        refine ⟨h1.1, h1.2.1, ?_⟩
        dsimp only
        rw [if_pos (show _ ∧ _ ∧ _ from h1), hκ.el k ((valQ_iff M k).1 hk)]
        exact hq k hk
      · intro a ha b hb he
        exact hκ.inj a b ((valQ_iff M a).1 ha) ((valQ_iff M b).1 hb) he
      · intro j hj
        have h1 := hv (packEls M.quads) j ((valQ_iff _ j).1 hj)
        obtain ⟨a, ha, he⟩ := hκ.surj j h1
        exact ⟨a, (valQ_iff M a).2 ha, he⟩
    · intro k hk
      have h0 := (valQ_iff M k).1 hk
      have h1 := hκ.val k h0
      dsimp only
      rw [if_pos (show _ ∧ _ ∧ _ from h1), hκ.el k h0]
      refine ⟨rfl, fun i hi => ?_⟩
      show (if i < 4 then ((number M.np M.pt).2.2 ((M.quads.el k).v i)).tmp else _) = _
      rw [if_pos hi, htmp _ (h.quad k hk i hi)]
  · have hz : LT.length + LQ.length ≠ 0 ↔ ((∃ k i, TriSide opn M k i) ∨ ∃ k i, QuadSide opn M k i) := by
      constructor
      · intro h0
        by_contra hc
        rw [not_or] at hc
        have e1 : LT.length = 0 := (mem_nil_iff LT).2 (fun x hx => hc.1 ⟨x.1, x.2, (hmemT x).1 hx⟩)
        have e2 : LQ.length = 0 := (mem_nil_iff LQ).2 (fun x hx => hc.2 ⟨x.1, x.2, (hmemQ x).1 hx⟩)
        omega
      · rintro (⟨k, i, hs⟩ | ⟨k, i, hs⟩)
        · have := List.length_pos_of_mem ((hmemT (k, i)).2 hs); omega
        · have := List.length_pos_of_mem ((hmemQ (k, i)).2 hs); omega
    rw [← hz]
    cases mem <;> simp
  · intro hb
    have hna' : na = LT.length + LQ.length := by
      rw [← hna]
      by_cases hc : LT.length + LQ.length ≠ 0 ∧ mem = false
      · exfalso
        obtain ⟨c1, rfl⟩ := hc
        simp only [c1, ne_eq, not_false_eq_true, decide_true, Bool.not_false, Bool.and_self, Bool.not_true,
          Bool.false_eq_true] at hb
      · rw [if_neg hc]
    have hT1 : ∀ x ∈ LT, T.edge (0 + 1 + LT.idxOf x) = triEdge (cleanUpTo M.nt M.tri) x.1
        (rank (fun k => eok (M.tri k)) x.1) x.2 := by
      intro x hx
      have hlt := List.idxOf_lt_length_of_mem hx
      rw [b2 _ (by omega), a3 _ hlt, List.getElem_map, List.getElem_idxOf hlt]
    have hT2 : ∀ x ∈ LQ, T.edge (LT.length + 1 + LQ.idxOf x) = quadEdge M.quads.el x.1
        (rank (fun k => eok (M.quads.el k)) x.1) x.2 := by
      intro x hx
      have hlt := List.idxOf_lt_length_of_mem hx
      rw [← a1, b3 _ hlt, List.getElem_map, List.getElem_idxOf hlt]
    refine ⟨LT.length, fun x => 0 + 1 + LT.idxOf x, fun x => LT.length + 1 + LQ.idxOf x, ?_, ?_, ?_, ?_, ?_⟩
    · have := idx_bij hndT 0
      rw [show {x | x ∈ LT} = {x | TriSide opn M x.1 x.2} from Set.ext hmemT] at this
      simpa only [Nat.zero_add] using this
    · have := idx_bij hndQ LT.length
      rw [show {x | x ∈ LQ} = {x | QuadSide opn M x.1 x.2} from Set.ext hmemQ] at this
      dsimp only
      rw [hna']
      exact this
    · dsimp only; omega
    · intro k i hs
      have hx := (hmemT (k, i)).2 hs
      have hlt := List.idxOf_lt_length_of_mem hx
      have hu1 := h.tri k hs.1 _ (inxt2_lt i)
      have hu2 := h.tri k hs.1 _ (iprv2_lt i)
      have h1 := ((used_iff M _).1 hu1).1
      dsimp only
      rw [if_neg (show ¬ na = 0 by omega)]
      unfold renumEdges
      rw [hT1 _ hx]
      unfold triEdge
      dsimp only
      rw [hcl k hs.1]
      rw [if_pos (show _ ∧ _ ∧ _ from ⟨by omega, by omega, by show (M.tri k).v (inxt2 i) ≠ 0; omega⟩)]
      show Edge.mk ((number M.np M.pt).2.2 ((M.tri k).v (inxt2 i))).tmp
        ((number M.np M.pt).2.2 ((M.tri k).v (iprv2 i))).tmp _ _ (if i < 3 then untag ((M.tri k).dat.tag i) else _) = _
      rw [htmp _ hu1, htmp _ hu2, if_pos hs.2.1, untag_eq]
      rfl
    · intro k i hs
      have hx := (hmemQ (k, i)).2 hs
      have hlt := List.idxOf_lt_length_of_mem hx
      have hu1 := h.quad k hs.1 _ (idirq_lt i).1
      have hu2 := h.quad k hs.1 _ (idirq_lt i).2
      have h1 := ((used_iff M _).1 hu1).1
      dsimp only
      rw [if_neg (show ¬ na = 0 by omega)]
      unfold renumEdges
      rw [hT2 _ hx]
      unfold quadEdge
      dsimp only
      rw [if_pos (show _ ∧ _ ∧ _ from ⟨by omega, by omega, by omega⟩)]
      dsimp only
      rw [htmp _ hu1, htmp _ hu2]
      exact ⟨rfl, rfl, rfl, rfl⟩
  · intro hb
    dsimp only
    rw [← hna]
    cases mem
    · by_cases h0 : LT.length + LQ.length = 0
      · rw [if_neg (fun hc => hc.1 h0), h0]
      · rw [if_pos ⟨h0, rfl⟩]
    · simp at hb

/-! ### Property theorems -/

/-- C12. -/
theorem C12_pack_consistent (zp : α) (zt : Side β) (e0 : Nat → Edge) (opn mem : Bool) {M : Mesh α β K} (h : Ready M) :
    ∃ M' nc b new τ κ, pack zp zt e0 opn mem M = some (M', nc, b) ∧ Consistent M M' new τ κ ∧
      nc = ((Finset.Icc 1 M.np).filter fun i => (M.pt i).tag.toNat < 32768 ∧ (M.pt i).tag &&& CRN ≠ 0).card ∧
      (b = false ↔ mem = false ∧ ((∃ k i, TriSide opn M k i) ∨ ∃ k i, QuadSide opn M k i)) := by
  obtain ⟨M', nc, b, new, τ, κ, h1, h2, h3, h4, _⟩ := pack_full zp zt e0 opn mem h
  exact ⟨M', nc, b, new, τ, κ, h1, h2, h3, h4⟩

/-- C56: the output edges are the sides to be listed, with their end points, references and tags, and the look-up
functions find the triangles of an edge that comes from a triangle. -/
theorem C56_edge_table (zp : α) (zt : Side β) (e0 : Nat → Edge) (opn : Bool) {M : Mesh α β K} (h : Ready M) :
    ∃ M' nc new τ κ n1 φ ψ, pack zp zt e0 opn true M = some (M', nc, true) ∧ Consistent M M' new τ κ ∧
      Edges opn M M' new τ n1 φ ψ ∧
      (∀ k i, TriSide opn M k i → triFromEdge M'.edge (φ (k, i)) = some (τ k, i)) ∧
      (∀ k i, TriSide opn M k i → M.adja (tidx k i) = 0 →
        trisFromEdge M'.edge M'.adja (φ (k, i)) = some ((τ k, i), (0, 0))) ∧
      (∀ k i c j, TriSide opn M k i → ValT M c → j < 3 → Joined M k i c j →
        trisFromEdge M'.edge M'.adja (φ (k, i)) = some ((τ k, i), (τ c, j))) := by
  obtain ⟨M', nc, b, new, τ, κ, h1, h2, h3, h4, h5, _⟩ := pack_full zp zt e0 opn true h
  have hb : b = true := by
    cases b
    · exact absurd (h4.1 rfl).1 (by decide)
    · rfl
  subst hb
  obtain ⟨n1, φ, ψ, hE⟩ := h5 rfl
  have key : ∀ k i, TriSide opn M k i → triFromEdge M'.edge (φ (k, i)) = some (τ k, i) := by
    intro k i hs
    have h0 := (Set.mem_Icc.1 (h2.tris.1 hs.1)).1
    unfold triFromEdge
    rw [hE.triEdge k i hs]
    dsimp only
    have hi := hs.2.1
    rw [if_neg (by omega), show (3 * τ k + i) / 3 = τ k by omega, show (3 * τ k + i) % 3 = i by omega]
  refine ⟨M', nc, new, τ, κ, n1, φ, ψ, h1, h2, hE, key, ?_, ?_⟩
  · intro k i hs h0
    unfold trisFromEdge
    rw [key k i hs]
    dsimp only
    rw [h2.free k hs.1 i hs.2.1 h0]
  · intro k i c j hs hc hj hJ
    unfold trisFromEdge
    rw [key k i hs]
    dsimp only
    have := h2.joined k hs.1 i hs.2.1 c j hc hj hJ
    unfold Joined at this
    rw [this, show (3 * τ c + j) / 3 = τ c by omega, show (3 * τ c + j) % 3 = j by omega]

/-- Side `i` of triangle `k` lies on the boundary of the mesh or between two domains. -/
def Interface (M : Mesh α β K) (k i : Nat) : Prop :=
  M.adja (tidx k i) = 0 ∨ ∃ c j, ValT M c ∧ j < 3 ∧ Joined M k i c j ∧ (M.tri c).dat.ref ≠ (M.tri k).dat.ref

/-- C56, without open boundaries: an edge on the boundary or between two domains is listed exactly once, from one of its
two sides; the other sides are not listed unless they are required. -/
theorem C56_once_partial (zp : α) (zt : Side β) (e0 : Nat → Edge) {M : Mesh α β K} (h : Ready M) (hq : M.quads.n = 0) :
    ∃ M' nc new τ κ, pack zp zt e0 false true M = some (M', nc, true) ∧ Consistent M M' new τ κ ∧
      (∀ k i, ValT M k → i < 3 → Interface M k i → ∃! e, 1 ≤ e ∧ e ≤ M'.na ∧
        ∃ p q, trisFromEdge M'.edge M'.adja e = some (p, q) ∧ (p = (τ k, i) ∨ q = (τ k, i))) ∧
      (∀ k i, ValT M k → i < 3 → ¬ Interface M k i → plain ((M.tri k).dat.tag i) &&& (CRN ||| REQ) = 0 →
        ∀ e, 1 ≤ e → e ≤ M'.na → triFromEdge M'.edge e ≠ some (τ k, i)) := by
  obtain ⟨M', nc, new, τ, κ, n1, φ, ψ, h1, h2, h3, h4, h5, h6⟩ := C56_edge_table zp zt e0 false h
  have hnq : ∀ k i, ¬ QuadSide false M k i := by
    rintro k i ⟨⟨a, b, _⟩, _⟩; omega
  have hn1 : n1 = M'.na := by
    by_contra hc
    have hlt := h3.le
    obtain ⟨x, hx, _⟩ := h3.quad.2.2 (Set.mem_Icc.2 ⟨by omega, le_refl M'.na⟩)
    exact hnq _ _ hx
  have τinj := h2.tris.2.1
  refine ⟨M', nc, new, τ, κ, h1, h2, ?_, ?_⟩
  · intro k i hk hi hI
    -- the side from which the edge is listed
    have hside : ∃ k0 i0, TriSide false M k0 i0 ∧ ((k0 = k ∧ i0 = i) ∨ Joined M k0 i0 k i ∧ Joined M k i k0 i0) ∧
        (∀ c j, ValT M c → j < 3 → Joined M k0 i0 c j → ¬ TriSide false M c j) := by
      by_cases h0 : M.adja (tidx k i) = 0
      · refine ⟨k, i, ⟨hk, hi, Or.inl (by omega)⟩, Or.inl ⟨rfl, rfl⟩, ?_⟩
        intro c j hc hj hJ
        have := hc.1
        unfold Joined at hJ; omega
      · obtain ⟨c, j, hj, hc, hck, hJ, hJ'⟩ := h.adja k hk i hi h0
        have hkc : M.adja (tidx k i) / 3 = c := by unfold Joined at hJ; omega
        have hck' : M.adja (tidx c j) / 3 = k := by unfold Joined at hJ'; omega
        have hne : (M.tri c).dat.ref ≠ (M.tri k).dat.ref := by
          rcases hI with hI | ⟨c', j', hc', hj', hJc, hr⟩
          · exact absurd hI h0
          · have : c' = c := by unfold Joined at hJ hJc; omega
            rwa [this] at hr
        have uniq : ∀ a b x y x' y', y < 3 → y' < 3 → Joined M a b x y → Joined M a b x' y' → x = x' ∧ y = y' := by
          intro a b x y x' y' hy hy' e e'
          unfold Joined at e e'; omega
        rcases Int.lt_or_gt_of_ne hne with hlt | hgt
        · refine ⟨k, i, ⟨hk, hi, Or.inr (Or.inl (by rw [hkc]; exact hlt))⟩, Or.inl ⟨rfl, rfl⟩, ?_⟩
          rintro c' j' hc' hj' hJc ⟨_, _, hs⟩
          obtain ⟨rfl, rfl⟩ := uniq k i c' j' c j hj' hj hJc hJ
          rw [hck'] at hs
          rcases hs with hs | hs | hs | hs
          · have := hk.1; omega
          · omega
          · omega
          · exact absurd hs.1 (by decide)
        · refine ⟨c, j, ⟨hc, hj, Or.inr (Or.inl (by rw [hck']; exact hgt))⟩, Or.inr ⟨hJ', hJ⟩, ?_⟩
          rintro c' j' hc' hj' hJc ⟨_, _, hs⟩
          obtain ⟨rfl, rfl⟩ := uniq c j c' j' k i hj' hi hJc hJ'
          rw [hkc] at hs
          rcases hs with hs | hs | hs | hs
          · have := hc.1; omega
          · omega
          · omega
          · exact absurd hs.1 (by decide)
    obtain ⟨k0, i0, hs, hrel, hno⟩ := hside
    have hφ := Set.mem_Icc.1 (h3.tri.1 (show (k0, i0) ∈ {x | TriSide false M x.1 x.2} from hs))
    refine ⟨φ (k0, i0), ⟨hφ.1, by omega, ?_⟩, ?_⟩
    · rcases hrel with ⟨rfl, rfl⟩ | ⟨hJ, hJ'⟩
      · by_cases h0 : M.adja (tidx k0 i0) = 0
        · exact ⟨_, _, h5 k0 i0 hs h0, Or.inl rfl⟩
        · obtain ⟨c, j, hj, hc, _, hJ, _⟩ := h.adja k0 hk i0 hi h0
          exact ⟨_, _, h6 k0 i0 c j hs hc hj hJ, Or.inl rfl⟩
      · exact ⟨_, _, h6 k0 i0 k i hs hk hi hJ, Or.inr rfl⟩
    · rintro e ⟨e1, e2, p, q, hpq, hor⟩
      obtain ⟨⟨a, b⟩, hab, rfl⟩ := h3.tri.2.2 (Set.mem_Icc.2 ⟨e1, by omega⟩)
      have hab : TriSide false M a b := hab
      congr 1
      have hcase : (a = k ∧ b = i) ∨ Joined M a b k i := by
        by_cases h0 : M.adja (tidx a b) = 0
        · rw [h5 a b hab h0] at hpq
          obtain ⟨rfl, rfl⟩ := Prod.mk.inj (Option.some.inj hpq)
          rcases hor with hor | hor
          · obtain ⟨x, y⟩ := Prod.mk.inj hor
            exact Or.inl ⟨τinj hab.1 hk x, y⟩
          · obtain ⟨x, y⟩ := Prod.mk.inj hor
            have := (Set.mem_Icc.1 (h2.tris.1 hk)).1
            omega
        · obtain ⟨c, j, hj, hc, _, hJ, _⟩ := h.adja a hab.1 b hab.2.1 h0
          rw [h6 a b c j hab hc hj hJ] at hpq
          obtain ⟨rfl, rfl⟩ := Prod.mk.inj (Option.some.inj hpq)
          rcases hor with hor | hor
          · obtain ⟨x, y⟩ := Prod.mk.inj hor
            exact Or.inl ⟨τinj hab.1 hk x, y⟩
          · obtain ⟨x, y⟩ := Prod.mk.inj hor
            have := τinj hc hk x
            subst this; subst y
            exact Or.inr hJ
      rcases hrel with ⟨rfl, rfl⟩ | ⟨hJ, hJ'⟩
      · rcases hcase with ⟨rfl, rfl⟩ | hJ
        · rfl
        · -- then the partner (a, b) of (k, i) would be listed too
          obtain ⟨c, j, hj, hc, _, hJ1, hJ2⟩ := h.adja a hab.1 b hab.2.1 (by have := hk.1; unfold Joined at hJ; omega)
          have : c = k0 ∧ j = i0 := by unfold Joined at hJ hJ1; omega
          obtain ⟨rfl, rfl⟩ := this
          exact absurd hab (hno a b hab.1 hab.2.1 hJ2)
      · rcases hcase with ⟨rfl, rfl⟩ | hJab
        · exact absurd hab (hno a b hk hi hJ)
        · obtain ⟨c, j, hj, hc, _, hJ1, hJ2⟩ := h.adja a hab.1 b hab.2.1 (by have := hk.1; unfold Joined at hJab; omega)
          have : c = k ∧ j = i := by unfold Joined at hJab hJ1; omega
          obtain ⟨rfl, rfl⟩ := this
          have hi0 := hs.2.1
          have hb0 := hab.2.1
          have : a = k0 ∧ b = i0 := by unfold Joined at hJ' hJ2; omega
          rw [this.1, this.2]
  · intro k i hk hi hI htag e e1 e2 he
    obtain ⟨⟨a, b⟩, hab, rfl⟩ := h3.tri.2.2 (Set.mem_Icc.2 ⟨e1, by omega⟩)
    have hab : TriSide false M a b := hab
    rw [h4 a b hab] at he
    obtain ⟨x, rfl⟩ := Prod.mk.inj (Option.some.inj he)
    obtain rfl := τinj hab.1 hk x
    apply hI
    rcases hab.2.2 with hs | hs | hs | hs
    · by_cases h0 : M.adja (tidx a b) = 0
      · exact Or.inl h0
      · obtain ⟨c, j, hj, hc, _, hJ, _⟩ := h.adja a hk b hi h0
        have := hc.1
        unfold Joined at hJ; omega
    · by_cases h0 : M.adja (tidx a b) = 0
      · exact Or.inl h0
      · obtain ⟨c, j, hj, hc, _, hJ, _⟩ := h.adja a hk b hi h0
        refine Or.inr ⟨c, j, hc, hj, hJ, ?_⟩
        rw [show M.adja (tidx a b) / 3 = c by unfold Joined at hJ; omega] at hs
        omega
    · exact absurd htag hs.2
    · exact absurd hs.1 (by decide)

end Mmg.Pack2
