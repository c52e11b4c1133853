/-
C19: the octree stores exactly the inserted vertices.  C20: the zone search and the insertion
filter.  C57: moving a vertex.
-/
import Verif.OctSearch
import Mathlib.Data.Rat.Floor
import Mathlib.Data.Nat.Prime.Basic

namespace Mmg.Oct

/-! ### Specification -/

/-- Requests to the octree: `MMG3D_addPROctree` and `MMG3D_delPROctree`. -/
inductive Op where
  | ins (no : Nat)
  | del (no : Nat)

/-- The multiset of the vertices inserted and not deleted. -/
def stored (ops : List Op) : List Nat :=
  ops.foldl (fun S op => match op with
    | .ins no => no :: S
    | .del no => S.erase no) []

section
variable {α : Type} [Field α] [LinearOrder α]

/-- One request. -/
def exec (nv : Nat) (pos : Nat → Fin 3 → α) (q : Oct) : Op → Option Oct
  | .ins no => addV nv pos q no
  | .del no => delV nv pos q no

/-- A history of requests on a new octree. -/
def run (nv : Nat) (pos : Nat → Fin 3 → α) (ops : List Op) : Option Oct :=
  ops.foldlM (exec nv pos) initCell

/-- `Leaf q lo s n l`: below the cube of lower corner `lo` and side `s` there is, `n` levels
deeper, a cell without sub-cells holding `l`; `lo'` and `s'` are its corner and side. -/
inductive Leaf : Oct → (Fin 3 → α) → α → Nat → (Fin 3 → α) → α → List Nat → Prop
  | here (d cap : Nat) (l : List Nat) (lo : Fin 3 → α) (s : α) :
      Leaf (.leaf d cap l) lo s 0 lo s l
  | down (d nb : Nat) (br : Nat → Oct) (lo : Fin 3 → α) (s : α) (b : Nat) (n : Nat)
      (lo' : Fin 3 → α) (s' : α) (l : List Nat) : b < 8 →
      Leaf (br b) (fun i => if b.testBit i then lo i + s / 2 else lo i) (s / 2) n lo' s' l →
      Leaf (.branch d nb br) lo s (n + 1) lo' s' l

/-- The point is in the unit cube. -/
def Unit3 (x : Fin 3 → α) : Prop := ∀ i, 0 ≤ x i ∧ x i ≤ 1

end

/-! ### C19 -/

section
variable {α : Type} [Field α] [LinearOrder α] [IsStrictOrderedRing α]
variable {nv : Nat} {pos : Nat → Fin 3 → α}

/-- Centre of the root. -/
def mid : Fin 3 → α := fun _ => 1 / 2

theorem at_root (x : Fin 3 → α) : At 0 mid x := by
  unfold At
  rw [scale]; exact (aff_root x).symm

theorem wf_init : WF nv pos initCell 0 mid := by
  unfold WF initCell
  exact ⟨rfl, CapOK.empty nv, fun _ => by simp⟩

theorem addV_spec {a : Nat} (hnv : nv = 2 ^ a) {q : Oct} (hW : WF nv pos q 0 mid) (no : Nat) :
    ∃ q', addV nv pos q no = some q' ∧ WF nv pos q' 0 mid ∧ q'.items.Perm (no :: q.items) := by
  have h := (add_spec (pos := pos) hnv 21 0 (by omega)).resolve_right (by omega)
  obtain ⟨q', h1, h2, h3⟩ := h q mid no hW (fun x _ => at_root _)
  refine ⟨q', ?_, h2, h3⟩
  unfold addV
  have e : aff 0 mid (pos no) = pos no := aff_root _
  rw [e] at h1; exact h1

theorem delV_spec {a : Nat} (hnv : nv = 2 ^ a) {q : Oct} (hW : WF nv pos q 0 mid) (no : Nat) :
    ∃ q', delV nv pos q no = some q' ∧ WF nv pos q' 0 mid ∧
      q'.items.Perm (q.items.erase no) := by
  obtain ⟨q', h1, h2, h3⟩ := del_spec hnv q 0 mid (pos no) no hW (fun _ => rfl)
  refine ⟨q', ?_, h2, ?_⟩
  · unfold delV
    have e : aff 0 mid (pos no) = pos no := aff_root _
    rw [e] at h1; exact h1
  · rcases h3 with ⟨hm, hp⟩ | ⟨hm, rfl⟩
    · have := hp.erase no
      simp only [List.erase_cons_head] at this
      exact this.symm
    · rw [List.erase_of_not_mem hm]

theorem run_spec {a : Nat} (hnv : nv = 2 ^ a) (ops : List Op) : ∀ (q : Oct) (S : List Nat),
    WF nv pos q 0 mid → q.items.Perm S →
    ∃ q', ops.foldlM (exec nv pos) q = some q' ∧ WF nv pos q' 0 mid ∧
      q'.items.Perm (ops.foldl (fun S op => match op with
        | .ins no => no :: S
        | .del no => S.erase no) S) := by
  induction ops with
  | nil => intro q S hW hp; exact ⟨q, rfl, hW, hp⟩
  | cons op ops ih =>
    intro q S hW hp
    rw [List.foldlM_cons]
    cases op with
    | ins no =>
      obtain ⟨q1, h1, h2, h3⟩ := addV_spec hnv hW no
      obtain ⟨q2, h4, h5, h6⟩ := ih q1 (no :: S) h2 (h3.trans (hp.cons no))
      exact ⟨q2, by rw [exec, h1]; exact h4, h5, h6⟩
    | del no =>
      obtain ⟨q1, h1, h2, h3⟩ := delV_spec hnv hW no
      obtain ⟨q2, h4, h5, h6⟩ := ih q1 (S.erase no) h2 (h3.trans (hp.erase no))
      exact ⟨q2, by rw [exec, h1]; exact h4, h5, h6⟩

theorem leaf_spec : ∀ (q : Oct) (d : Nat) (c : Fin 3 → α), WF nv pos q d c →
    (∀ x ∈ q.items, ∀ i, c i - half d ≤ pos x i ∧ pos x i ≤ c i + half d ∧
      (c i - half d = 0 ∨ c i - half d < pos x i)) → d ≤ 20 →
    ∀ n lo' s' l, Leaf q (fun i => c i - half d) (2 * half d) n lo' s' l →
      (l.length ≤ nv ∨ d + n = 20) ∧ d + n ≤ 20 ∧ s' * 2 ^ n = 2 * half d ∧
      (∀ x ∈ l, x ∈ q.items) ∧
      ∀ x ∈ l, ∀ i, lo' i ≤ pos x i ∧ pos x i ≤ lo' i + s' ∧ (lo' i = 0 ∨ lo' i < pos x i) := by
  intro q
  induction q with
  | leaf d1 cap l1 =>
    intro d c hW hin hd20 n lo' s' l hL
    unfold WF at hW
    obtain ⟨rfl, C, hl⟩ := hW
    cases hL
    refine ⟨?_, by omega, by simp, fun x hx => hx, ?_⟩
    · by_cases h : d1 < 20
      · exact Or.inl (hl h)
      · right; omega
    · intro x hx i
      obtain ⟨h1, h2, h3⟩ := hin x hx i
      exact ⟨h1, by linarith, h3⟩
  | branch d1 nb br ih =>
    intro d c hW hin hd20 n lo' s' l hL
    unfold WF at hW
    obtain ⟨rfl, hd, hnb, htot, H⟩ := hW
    rw [items_branch] at *
    cases hL with
    | down _ _ _ _ _ b n _ _ _ hb hL =>
      obtain ⟨hWb, hQ⟩ := H b hb
      have hh := half_pos (α := α) d1
      have e1 : (fun i : Fin 3 => if b.testBit i then c i - half d1 + 2 * half d1 / 2 else
          c i - half d1) =
          fun i : Fin 3 => subCenter c d1 b i - half (d1 + 1) := by
        funext i
        rw [half_succ]
        simp only [subCenter, bit]
        by_cases h : b.testBit i = true
        · simp only [h, if_true]; ring
        · simp only [Bool.not_eq_true] at h
          simp only [h, Bool.false_eq_true, if_false]; ring
      have e2 : (2 * half d1 / 2 : α) = 2 * half (d1 + 1) := by rw [half_succ]; ring
      rw [e1, e2] at hL
      obtain ⟨h1, h2, h3, h4, h5⟩ := ih b (d1 + 1) (subCenter c d1 b) hWb (by
        intro x hx i
        obtain ⟨g1, g2, g3⟩ := hin x (mem_total.2 ⟨b, hb, hx⟩) i
        have hb' := bit_quadOf (pos x) c i
        rw [hQ x hx] at hb'
        rw [half_succ]
        simp only [subCenter, hb', decide_eq_true_eq]
        by_cases h : pos x i > c i
        · simp only [if_pos h]
          exact ⟨by linarith, by linarith, Or.inr (by linarith)⟩
        · simp only [if_neg h]
          refine ⟨by linarith, by linarith, ?_⟩
          rcases g3 with g | g
          · left; linarith
          · right; linarith) (by omega) n lo' s' l hL
      refine ⟨?_, by omega, ?_, fun x hx => mem_total.2 ⟨b, hb, h4 x hx⟩, h5⟩
      · rcases h1 with h | h
        · exact Or.inl h
        · right; omega
      · rw [half_succ] at h3
        rw [pow_succ]; linear_combination 2 * h3

/-- **C19**. For every requested cell size `nv0` and every history of insertions and deletions
(in any order, with repetitions, deletions of absent vertices included): the requests never
fail; the octree contains exactly the vertices inserted and not deleted, with multiplicities,
and its root counts them; a cell without sub-cells holds at most `nv` vertices, where `nv` is
the smallest power of 2 not below `nv0`, unless it is at the maximum depth 20; and each stored
vertex of the unit cube lies in the cube of its cell (which does not contain its lower faces,
unless they are on the boundary of the unit cube). -/
theorem C19_octree_history (nv0 : Nat) (h0 : 0 < nv0) (h31 : nv0 ≤ 2 ^ 31)
    (pos : Nat → Fin 3 → α) (ops : List Op) (hpos : ∀ x ∈ stored ops, Unit3 (pos x)) :
    ∃ q, run (roundNv nv0) pos ops = some q ∧
      q.items.Perm (stored ops) ∧ q.cnt = (stored ops).length ∧
      (nv0 ≤ roundNv nv0 ∧ (nv0 = 1 ∨ roundNv nv0 < 2 * nv0)) ∧
      ∀ n lo s l, Leaf q (fun _ => 0) 1 n lo s l →
        (l.length ≤ roundNv nv0 ∨ n = 20) ∧ n ≤ 20 ∧ s * 2 ^ n = 1 ∧
        ∀ x ∈ l, ∀ i, lo i ≤ pos x i ∧ pos x i ≤ lo i + s ∧ (lo i = 0 ∨ lo i < pos x i) := by
  obtain ⟨a, ha, hle, hlt⟩ := roundNv_spec h0 h31
  obtain ⟨q, h1, h2, h3⟩ := run_spec (pos := pos) ha ops initCell [] wf_init (List.Perm.refl _)
  have h3' : q.items.Perm (stored ops) := h3
  refine ⟨q, h1, h3', by rw [h2.cnt, h3'.length_eq], ⟨by omega, ?_⟩, ?_⟩
  · rcases hlt with h | h
    · exact Or.inl h
    · right; omega
  intro n lo s l hL
  have e0 : (half 0 : α) = 1 / 2 := by simp [half]
  have e1 : (fun i : Fin 3 => (mid i : α) - half 0) = fun _ => 0 := by
    funext i; simp [mid, e0]
  have e2 : (2 * half 0 : α) = 1 := by rw [e0]; norm_num
  obtain ⟨g1, g2, g3, g4, g5⟩ := leaf_spec q 0 mid h2 (by
    intro x hx i
    obtain ⟨k1, k2⟩ := hpos x (h3'.subset hx) i
    have e3 : (mid i : α) = 1 / 2 := rfl
    rw [e0, e3]
    refine ⟨by linarith, by linarith, Or.inl (by norm_num)⟩) (by omega) n lo s l
    (by rw [e1, e2]; exact hL)
  rw [e2] at g3
  refine ⟨?_, by omega, g3, g5⟩
  rcases g1 with g | g
  · exact Or.inl g
  · right; omega

end

/-- Eight vertices near a corner, cells of one vertex. -/
def exPos : Nat → Fin 3 → ℚ := fun n i => if (n + i) % 3 = 0 then 1 / 8 else n / 16

example : ∀ x ∈ stored [.ins 1, .ins 2, .ins 3, .ins 2, .del 1, .del 7, .del 2],
    Unit3 (exPos x) := by
  intro x hx
  have : x = 2 ∨ x = 3 := by
    have e : stored [.ins 1, .ins 2, .ins 3, .ins 2, .del 1, .del 7, .del 2] = [3, 2] := by decide
    rw [e] at hx
    simp at hx; tauto
  rcases this with rfl | rfl <;> intro i <;> revert i <;> decide +kernel

example : (run 1 exPos [.ins 1, .ins 2, .ins 3, .ins 4, .del 1, .del 7, .del 2]).map Oct.items
    = some [4, 3] := by decide +kernel

/-! ### C20 -/

section
variable {α : Type} [Field α] [LinearOrder α] [IsStrictOrderedRing α]

theorem inCell_root {x : Fin 3 → α} (h : Unit3 x) : InCell 0 mid x := by
  intro i
  obtain ⟨h1, h2⟩ := h i
  have e0 : (half 0 : α) = 1 / 2 := by simp [half]
  have e3 : (mid i : α) = 1 / 2 := rfl
  rw [e0, e3]; constructor <;> linarith

theorem search_spec (nv0 : Nat) (h0 : 0 < nv0) (h31 : nv0 ≤ 2 ^ 31) (pos : Nat → Fin 3 → α)
    (ops : List Op) (q : Oct) (hq : run (roundNv nv0) pos ops = some q) (nc : Nat) (R : Box α) :
    WF (roundNv nv0) pos q 0 mid ∧ q.items.Perm (stored ops) ∧
    ListOK nc pos q (fun x => InCell 0 mid (pos x) ∧ InBox R (pos x)) []
      (listRec nc (fun i => R.lo i + R.len i / 2) q (fun _ => 1 / 2) R []) := by
  obtain ⟨a, ha, _⟩ := roundNv_spec h0 h31
  obtain ⟨q', h1, h2, h3⟩ := run_spec (pos := pos) ha ops initCell [] wf_init (List.Perm.refl _)
  have e : q' = q := by
    unfold run at hq
    rw [h1] at hq
    exact Option.some.inj hq
  subst e
  exact ⟨h2, h3, listRec_spec nc _ q' 0 mid R [] h2⟩

/-- **C20** (partial). Whatever the history of the octree: when the search reports some cells,
they are non-empty cells without sub-cells of the octree and every stored vertex of the unit
cube lying in the closed box is in one of them. What is missing from the property: the search
may give up (`C20_search_given_up`), which it reports in the same way as an empty zone. -/
theorem C20_search_complete_partial (nv0 : Nat) (h0 : 0 < nv0) (h31 : nv0 ≤ 2 ^ 31)
    (pos : Nat → Fin 3 → α) (ops : List Op) (q : Oct)
    (hq : run (roundNv nv0) pos ops = some q) (nc : Nat) (R : Box α)
    (hne : getListSquare nc q R ≠ []) :
    (∀ cell ∈ getListSquare nc q R, LeafOf cell q) ∧
    (getListSquare nc q R).length + 4 ≤ nc ∧
    ∀ x ∈ stored ops, Unit3 (pos x) → (∀ i, R.lo i ≤ pos x i ∧ pos x i ≤ R.lo i + R.len i) →
      ∃ cell ∈ getListSquare nc q R, x ∈ cell.items := by
  obtain ⟨hW, hp, S⟩ := search_spec nv0 h0 h31 pos ops q hq nc R
  unfold getListSquare at *
  obtain ⟨res, hres⟩ : ∃ res, listRec nc (fun i => R.lo i + R.len i / 2) q (fun _ => 1 / 2) R []
    = res := ⟨_, rfl⟩
  rw [hres] at S
  simp only [hres] at hne ⊢
  by_cases h1 : res.1 = false
  · rw [if_pos h1] at hne; exact absurd rfl hne
  · rw [if_neg h1] at hne ⊢
    by_cases h2 : res.2.length + 4 > nc
    · rw [if_pos h2] at hne; exact absurd rfl hne
    · rw [if_neg h2]
      refine ⟨?_, by rw [List.length_map]; omega, ?_⟩
      · intro cell hc
        obtain ⟨e, he, rfl⟩ := List.mem_map.1 hc
        rcases S.new e he with h | h
        · simp at h
        · exact h
      · intro x hx hu hb
        obtain ⟨e, he, hxe⟩ := S.all (by simpa using h1) (by omega) x (hp.symm.subset hx)
          ⟨inCell_root hu, hb⟩
        exact ⟨e.2, List.mem_map.2 ⟨e, he, rfl⟩, hxe⟩

/-- **C20**. When no coordinate of the lower corner of the box is a dyadic number, the box has
an interior meeting the unit cube and the octree has at most `nc - 4` non-empty cells, the
search is complete: every stored vertex of the unit cube lying in the closed box is in one of
the listed cells. -/
theorem C20_search_generic (nv0 : Nat) (h0 : 0 < nv0) (h31 : nv0 ≤ 2 ^ 31)
    (pos : Nat → Fin 3 → α) (ops : List Op) (q : Oct)
    (hq : run (roundNv nv0) pos ops = some q) (nc : Nat) (R : Box α)
    (hlen : ∀ i, 0 < R.len i) (hin : ∀ i, R.lo i < 1 ∧ 0 < R.lo i + R.len i)
    (hgen : ∀ i (k j : Nat), R.lo i ≠ (k : α) / 2 ^ j) (hfew : leafCount q + 4 ≤ nc) :
    ∀ x ∈ stored ops, Unit3 (pos x) → (∀ i, R.lo i ≤ pos x i ∧ pos x i ≤ R.lo i + R.len i) →
      ∃ cell ∈ getListSquare nc q R, x ∈ cell.items := by
  obtain ⟨hW, hp, S⟩ := search_spec nv0 h0 h31 pos ops q hq nc R
  have e0 : (half 0 : α) = 1 / 2 := by simp [half]
  have hB : BoxAt R R 0 mid := by
    intro i
    have e3 : (mid i : α) = 1 / 2 := rfl
    obtain ⟨k1, k2⟩ := hin i
    rw [e0, e3]
    exact ⟨hlen i, by linarith, by linarith, Or.inl rfl, 1, by omega, by norm_num⟩
  have ht := listRec_true nc (fun i => R.lo i + R.len i / 2) hgen q 0 mid R [] hW hB
  intro x hx hu hb
  have hfew' := S.few
  rw [List.length_nil, Nat.zero_add] at hfew'
  obtain ⟨e, he, hxe⟩ := S.all ht (by omega) x (hp.symm.subset hx) ⟨inCell_root hu, hb⟩
  refine ⟨e.2, ?_, hxe⟩
  have ht' : (listRec nc (fun i => R.lo i + R.len i / 2) q (fun _ => 1 / 2) R []).1 = true := ht
  unfold getListSquare
  dsimp only
  rw [if_neg (by rw [ht']; simp), if_neg (by omega)]
  exact List.mem_map.2 ⟨e, he, rfl⟩

theorem abs_le_of_dist2 {p x : Fin 3 → α} {h : α} (hh : 0 ≤ h) (hd : dist2 x p < h * h) :
    InBox (halo p h) x := by
  have key : ∀ u v w : α, u * u + v * v + w * w < h * h → -h ≤ u ∧ u ≤ h := by
    intro u v w hs
    have h1 := mul_self_nonneg v
    have h2 := mul_self_nonneg w
    constructor
    · by_contra hc
      have : h < -u := by linarith [not_le.1 hc]
      have := mul_self_lt_mul_self hh this
      linarith [neg_mul_neg u u]
    · by_contra hc
      have := mul_self_lt_mul_self hh (not_le.1 hc)
      linarith
  unfold dist2 at hd
  intro i
  simp only [halo]
  rcases (by omega : i = 0 ∨ i = 1 ∨ i = 2) with rfl | rfl | rfl
  · have := key _ _ _ hd; constructor <;> linarith [this.1, this.2]
  · have := key (x 1 - p 1) (x 0 - p 0) (x 2 - p 2) (by linarith)
    constructor <;> linarith [this.1, this.2]
  · have := key (x 2 - p 2) (x 0 - p 0) (x 1 - p 1) (by linarith)
    constructor <;> linarith [this.1, this.2]

omit [Field α] [LinearOrder α] [IsStrictOrderedRing α] in
theorem LeafOf.items {cell q : Oct} (h : LeafOf cell q) {x : Nat} (hx : x ∈ cell.items) :
    x ∈ q.items := by
  induction h with
  | here => exact hx
  | sub d nb br b q' hb _ ih => rw [items_branch]; exact mem_total.2 ⟨b, hb, ih hx⟩

/-- **C20** (partial), the insertion filter. A refused point is indeed too close to a stored
vertex; a point accepted after a search that found some cell is at distance at least
`lmax * size` from every stored vertex of the unit cube. Missing: when the search gives up, the
point is accepted whatever is around (`C20_filter_midplane`, `C20_filter_overfull`). -/
theorem C20_filter_partial (nv0 : Nat) (h0 : 0 < nv0) (h31 : nv0 ≤ 2 ^ 31)
    (pos : Nat → Fin 3 → α) (ops : List Op) (q : Oct)
    (hq : run (roundNv nv0) pos ops = some q) (nc : Nat) (m : Nat → α) (ip : Nat) (lmax : α)
    (hpos : 0 ≤ lmax * m ip) :
    (inIso nc q pos m ip lmax = false → ∃ x ∈ stored ops,
      dist2 (pos x) (pos ip) < (lmax * m ip) * (lmax * m ip) ∨
      dist2 (pos x) (pos ip) < (lmax * m x) * (lmax * m x)) ∧
    (inIso nc q pos m ip lmax = true →
      getListSquare nc q (halo (pos ip) (lmax * m ip)) ≠ [] →
      ∀ x ∈ stored ops, Unit3 (pos x) →
        (lmax * m ip) * (lmax * m ip) ≤ dist2 (pos x) (pos ip)) := by
  constructor
  · intro h
    unfold inIso at h
    dsimp only at h
    rw [List.all_eq_false] at h
    obtain ⟨cell, hc, hf⟩ := h
    rw [Bool.not_eq_true, List.all_eq_false] at hf
    obtain ⟨x, hx, hf⟩ := hf
    have hne : getListSquare nc q (halo (pos ip) (lmax * m ip)) ≠ [] := by
      intro e; rw [e] at hc; simp at hc
    obtain ⟨h1, h2, h3⟩ := C20_search_complete_partial nv0 h0 h31 pos ops q hq nc _ hne
    obtain ⟨_, hp, _⟩ := search_spec nv0 h0 h31 pos ops q hq nc (halo (pos ip) (lmax * m ip))
    refine ⟨x, hp.subset ?_, ?_⟩
    · have hl := h1 cell hc
      exact hl.items hx
    · by_contra hcon
      rw [not_or] at hcon
      simp [hcon.1, hcon.2] at hf
  · intro h hne x hx hu
    obtain ⟨h1, h2, h3⟩ := C20_search_complete_partial nv0 h0 h31 pos ops q hq nc _ hne
    by_contra hc
    obtain ⟨cell, hcell, hxc⟩ := h3 x hx hu (abs_le_of_dist2 hpos (not_le.1 hc))
    unfold inIso at h
    dsimp only at h
    have g := List.all_eq_true.1 (List.all_eq_true.1 h cell hcell) x hxc
    simp at g
    exact hc g.1

/-- **C20**, the insertion filter in general position: a point is accepted only if it is at
distance at least `lmax * size` from every stored vertex. -/
theorem C20_filter_generic (nv0 : Nat) (h0 : 0 < nv0) (h31 : nv0 ≤ 2 ^ 31)
    (pos : Nat → Fin 3 → α) (ops : List Op) (q : Oct)
    (hq : run (roundNv nv0) pos ops = some q) (nc : Nat) (m : Nat → α) (ip : Nat) (lmax : α)
    (hpos : 0 < lmax * m ip) (hu : Unit3 (pos ip))
    (hgen : ∀ i (k j : Nat), pos ip i - lmax * m ip ≠ (k : α) / 2 ^ j)
    (hfew : leafCount q + 4 ≤ nc) (hacc : inIso nc q pos m ip lmax = true) :
    ∀ x ∈ stored ops, Unit3 (pos x) →
        (lmax * m ip) * (lmax * m ip) ≤ dist2 (pos x) (pos ip) := by
  intro x hx hux
  by_contra hc
  have hb := abs_le_of_dist2 hpos.le (not_le.1 hc)
  obtain ⟨cell, hcell, _⟩ := C20_search_generic nv0 h0 h31 pos ops q hq nc
    (halo (pos ip) (lmax * m ip)) (by intro i; simp only [halo]; linarith)
    (by intro i; simp only [halo]; obtain ⟨k1, k2⟩ := hu i; constructor <;> linarith)
    hgen hfew x hx hux hb
  exact hc ((C20_filter_partial nv0 h0 h31 pos ops q hq nc m ip lmax hpos.le).2 hacc
    (fun e => by rw [e] at hcell; simp at hcell) x hx hux)

end

/-- Vertices 1 and 2 at opposite places, vertex 3 at the position of vertex 1. -/
def gPos : Nat → Fin 3 → ℚ := fun n _ => if n = 2 then 1 / 8 else 3 / 4

/-- **C20** fails when the box touches a mid-plane: vertex 3 lies exactly on the stored vertex 1
but the lower corner (1/2,1/2,1/2) of its box is the centre of the root, the search is given up,
and the vertex is accepted. -/
theorem C20_filter_midplane :
    (run 1 gPos [.ins 1, .ins 2]).map (fun q => (inIso 2048 q gPos (fun _ => 1 / 4) 3 1,
      (getListSquare 2048 q (halo (gPos 3) (1 / 4))).length)) = some (true, 0) ∧
    dist2 (gPos 1) (gPos 3) = 0 := by
  decide +kernel

/-- With a slightly smaller size the same point is refused. -/
theorem C20_filter_off_midplane :
    (run 1 gPos [.ins 1, .ins 2]).map (fun q => (inIso 2048 q gPos (fun _ => 1 / 5) 3 1,
      (getListSquare 2048 q (halo (gPos 3) (1 / 5))).length)) = some (false, 1) := by
  decide +kernel

/-- The hypotheses of the two theorems in general position hold for that point: its box starts
at 11/20, which is not dyadic. -/
example : (∀ (i : Fin 3) (k j : Nat), gPos 3 i - 1 * (1 / 5) ≠ (k : ℚ) / 2 ^ j) ∧
    (run (roundNv 1) gPos [.ins 1, .ins 2]).map (fun q => decide (leafCount q + 4 ≤ 2048)) =
      some true ∧ (∀ i, 0 ≤ gPos 3 i ∧ gPos 3 i ≤ 1) := by
  refine ⟨?_, by decide +kernel, by decide +kernel⟩
  intro i k j h
  have e : gPos 3 i - 1 * (1 / 5) = 11 / 20 := by simp [gPos]; norm_num
  rw [e, div_eq_div_iff (by norm_num) (by positivity)] at h
  have h' : 11 * 2 ^ j = k * 20 := by exact_mod_cast h
  have h5 : 5 ∣ 11 * 2 ^ j := ⟨k * 4, by omega⟩
  rcases (Nat.Prime.dvd_mul Nat.prime_five).1 h5 with h | h
  · omega
  · have := Nat.Prime.dvd_of_dvd_pow Nat.prime_five h
    omega

/-- The vertices of a regular grid with 4 vertices per axis. -/
def gridPos : Nat → Fin 3 → ℚ := fun n i =>
  if n = 100 then 1 / 2 else
    (if i = 0 then (n % 4 : ℕ) else if i = 1 then ((n / 4) % 4 : ℕ) else ((n / 16) % 4 : ℕ) : ℚ) / 4
      + 1 / 8

/-- **C20** fails when too many cells meet the box: with cells of one vertex and room for 12
cells, the search over 64 cells is given up and the point is accepted although it is closer to
eight stored vertices than the required distance. -/
theorem C20_filter_overfull :
    (run 1 gridPos ((List.range 64).map Op.ins)).map (fun q =>
      inIso 16 q gridPos (fun _ => 1 / 3) 100 1) = some true ∧
    dist2 (gridPos 21) (gridPos 100) < (1 / 3) * (1 / 3) := by
  decide +kernel

/-! ### C57 -/

section
variable {α : Type} [Field α] [LinearOrder α] [IsStrictOrderedRing α] [FloorRing α]

/-- **C57** fails: when the mesh still holds the old coordinates at the time of the call, as it
does at every call made by the vertex moves, `MMG3D_movePROctree` does nothing. -/
theorem C57_move_ignored (nv : Nat) (pos : Nat → Fin 3 → α) (q : Oct) (no : Nat)
    (newV : Fin 3 → α) : moveV nv pos q no newV (pos no) = some q := by
  unfold moveV; rw [if_pos rfl]

/-- **C57** (partial). When the mesh already holds the new coordinates and the integer codes of
the two positions differ, the vertex (stored once) is moved: the octree stores the same
vertices, and is well formed for the new positions, so that each later deletion or search finds
the vertex. Missing: the case where the mesh holds the old coordinates (`C57_move_ignored`) and
positions with the same code but in different cells (`C57_same_code`). -/
theorem C57_move_partial (nv0 : Nat) (h0 : 0 < nv0) (h31 : nv0 ≤ 2 ^ 31)
    (pos : Nat → Fin 3 → α) (ops : List Op) (q : Oct)
    (hq : run (roundNv nv0) pos ops = some q) (no : Nat) (newV : Fin 3 → α)
    (hcode : code newV ≠ code (pos no)) (honce : (stored ops).count no = 1)
    (more : List Op) :
    ∃ q1, moveV (roundNv nv0) (Function.update pos no newV) q no newV (pos no) = some q1 ∧
      q1.items.Perm (stored ops) ∧
      ∃ q2, more.foldlM (exec (roundNv nv0) (Function.update pos no newV)) q1 = some q2 ∧
        q2.items.Perm (stored (ops ++ more)) ∧
        ((∀ x ∈ stored (ops ++ more), Unit3 (Function.update pos no newV x)) →
          ∀ n lo s l, Leaf q2 (fun _ => 0) 1 n lo s l →
          ∀ x ∈ l, ∀ i, lo i ≤ Function.update pos no newV x i ∧
            Function.update pos no newV x i ≤ lo i + s) := by
  obtain ⟨a, ha, _⟩ := roundNv_spec h0 h31
  obtain ⟨hW, hp, _⟩ := search_spec nv0 h0 h31 pos ops q hq 0 ⟨fun _ => 0, fun _ => 0⟩
  obtain ⟨q0, d1, d2, d3⟩ := delV_spec ha hW no
  have hnot : no ∉ q0.items := by
    intro hm
    have h1 := List.count_pos_iff.2 hm
    rw [d3.count_eq, List.count_erase_self, hp.count_eq, honce] at h1
    omega
  have hW0 : WF (roundNv nv0) (Function.update pos no newV) q0 0 mid := by
    refine WF.congr q0 0 mid (fun x hx => ?_) d2
    exact Function.update_of_ne (fun e : x = no => hnot (by rw [← e]; exact hx)) _ _
  obtain ⟨q1, a1, a2, a3⟩ := addV_spec ha hW0 no
  have hin : no ∈ stored ops := List.count_pos_iff.1 (by omega)
  have hperm : q1.items.Perm (stored ops) := by
    refine a3.trans ?_
    refine (d3.cons no).trans ?_
    exact ((hp.erase no).cons no).trans (List.perm_cons_erase hin).symm
  refine ⟨q1, ?_, hperm, ?_⟩
  · unfold moveV
    rw [if_neg (by rw [Function.update_self]; exact hcode)]
    unfold delV at d1
    rw [d1]
    unfold addV at a1
    rw [Function.update_self] at a1
    exact a1
  · obtain ⟨q2, b1, b2, b3⟩ := run_spec ha more q1 (stored ops) a2 hperm
    have b3' : q2.items.Perm (stored (ops ++ more)) := by
      unfold stored; rw [List.foldl_append]; exact b3
    refine ⟨q2, b1, b3', ?_⟩
    intro hpos n lo s l hL x hx i
    have e0 : (half 0 : α) = 1 / 2 := by simp [half]
    have e1 : (fun i : Fin 3 => (mid i : α) - half 0) = fun _ => 0 := by
      funext i; simp [mid, e0]
    have e2 : (2 * half 0 : α) = 1 := by rw [e0]; norm_num
    obtain ⟨_, _, _, _, g5⟩ := leaf_spec q2 0 mid b2 (by
      intro x hx i
      obtain ⟨k1, k2⟩ := hpos x (b3'.subset hx) i
      have e3 : (mid i : α) = 1 / 2 := rfl
      rw [e0, e3]
      refine ⟨by linarith, by linarith, Or.inl (by norm_num)⟩) (by omega) n lo s l
      (by rw [e1, e2]; exact hL)
    exact ⟨(g5 x hx i).1, (g5 x hx i).2.1⟩

end

/-- Four vertices; vertex 1 is then moved from (1/8,1/8,1/8) to (7/8,7/8,7/8). -/
def mPos : Nat → Fin 3 → ℚ := fun n i =>
  if n = 1 then 1 / 8 else if n = 2 then 1 / 4 else if i = 0 then 7 / 8 else n / 8

example : code (fun _ : Fin 3 => (7 / 8 : ℚ)) ≠ code (mPos 1) ∧
    (stored [.ins 1, .ins 2, .ins 3]).count 1 = 1 := by decide +kernel

/-- Consequences of the ignored move: vertex 1 is moved as the vertex moves do it, then deleted
from the octree (as after a collapse): it stays in the octree. -/
theorem C57_move_then_delete :
    (((run 1 mPos [.ins 1, .ins 2, .ins 3]).bind
        (fun q => moveV 1 mPos q 1 (fun _ => 7 / 8) (mPos 1))).bind
      (fun q => delV 1 (Function.update mPos 1 (fun _ => 7 / 8)) q 1)).map Oct.items
      = some [1, 2, 3] ∧
    (((run 1 mPos [.ins 1, .ins 2, .ins 3]).bind
        (fun q => moveV 1 (Function.update mPos 1 (fun _ => 7 / 8)) q 1 (fun _ => 7 / 8) (mPos 1))).bind
      (fun q => delV 1 (Function.update mPos 1 (fun _ => 7 / 8)) q 1)).map Oct.items
      = some [2, 3] := by
  decide +kernel

/-- Two positions on both sides of the mid-plane, at distance 2^-30. -/
def sPos : Nat → Fin 3 → ℚ := fun n i =>
  if n = 1 then (if i = 0 then 1 / 2 - 1 / 2 ^ 31 else 1 / 4) else if n = 2 then 7 / 8 else 1 / 8

/-- **C57** fails for small moves across the boundary of a cell, even when the mesh holds the new
coordinates: the code is unchanged, the vertex is left in its old cell, and its deletion is then
missed. -/
theorem C57_same_code :
    (((run 1 sPos [.ins 1, .ins 2]).bind (fun q =>
        moveV 1 (Function.update sPos 1 (fun i => if i = 0 then 1 / 2 + 1 / 2 ^ 31 else 1 / 4)) q 1
          (fun i => if i = 0 then 1 / 2 + 1 / 2 ^ 31 else 1 / 4) (sPos 1))).bind
      (fun q => delV 1
        (Function.update sPos 1 (fun i => if i = 0 then 1 / 2 + 1 / 2 ^ 31 else 1 / 4)) q 1)).map
      Oct.items = some [1, 2] := by
  decide +kernel

end Mmg.Oct
