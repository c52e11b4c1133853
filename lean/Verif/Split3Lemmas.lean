/-
  Helper lemmas for the subdivision of a tetrahedron: the split functions act the same way on
  symbolic values, so that the finitely many symbolic runs decide the general statements.
-/
import Verif.Split3Spec

namespace Mmg.Split3

/-! ### The runs are natural in the values -/

section
variable {V T R B V' T' R' B' : Type}

/-- Change of the values of a tetrahedron. -/
structure Hom (V T R B V' T' R' B' : Type) where
  fV : V → V'
  fT : T → T'
  fE : R → R'
  fB : B → B'

def Hom.tet (h : Hom V T R B V' T' R' B') (t : Tet V T R B) : Tet V' T' R' B' :=
  { v := t.v.map h.fV, tag := t.tag.map h.fT, edg := t.edg.map h.fE, ref := t.ref.map h.fE,
    ftag := t.ftag.map h.fT, ori := t.ori.map h.fB }

structure Hom.Src (h : Hom V T R B V' T' R' B') (s : Split3.Src V T R B)
    (s' : Split3.Src V' T' R' B') : Prop where
  vx : ∀ e, s'.vx e = h.fV (s.vx e)
  ib : s'.ib = h.fV s.ib
  fs : ∀ f, s'.fs f = h.fT (s.fs f)
  zT : s'.zT = h.fT s.zT
  zR : s'.zR = h.fE s.zR
  one : s'.one = h.fB s.one

theorem map_modify {α β : Type} (g : α → β) (f : α → α) (f' : β → β)
    (h : ∀ x, g (f x) = f' (g x)) (l : List α) (k : Nat) :
    (l.modify k f).map g = (l.map g).modify k f' := by
  induction l generalizing k with
  | nil => cases k <;> rfl
  | cons a l ih =>
    cases k with
    | zero => simp [h]
    | succ k => simpa using ih k

theorem step_map (h : Hom V T R B V' T' R' B') {s : Split3.Src V T R B}
    {s' : Split3.Src V' T' R' B'} (hs : h.Src s s') (c : Cfg) (ch : List (Tet V T R B))
    (st : Stmt) :
    (step c s ch st).map h.tet = step c s' (ch.map h.tet) st := by
  cases st <;> simp only [step] <;> apply map_modify <;> intro x <;>
    simp [Hom.tet, List.map_set, hs.vx, hs.ib, hs.fs, hs.zT, hs.zR, hs.one]

theorem exec_map (h : Hom V T R B V' T' R' B') {s : Split3.Src V T R B}
    {s' : Split3.Src V' T' R' B'} (hs : h.Src s s') (p : Prog) (t : Tet V T R B) :
    exec p s' (h.tet t) = (exec p s t).map h.tet := by
  unfold exec
  have hr : List.replicate p.ne (h.tet t) = (List.replicate p.ne t).map h.tet := by simp
  rw [hr]
  generalize List.replicate p.ne t = l
  induction p.body generalizing l with
  | nil => rfl
  | cons a b ih => rw [List.foldl_cons, List.foldl_cons, ← step_map h hs, ih]
end

/-! ### Symbolic values -/

inductive Sym
  | edge (e : Nat) | face (f : Nat) | strip (f : Nat) | zero | one
  deriving DecidableEq

def symTet : Tet Pos Sym Sym Sym :=
  { v := [.corner 0, .corner 1, .corner 2, .corner 3]
    tag := [.edge 0, .edge 1, .edge 2, .edge 3, .edge 4, .edge 5]
    edg := [.edge 0, .edge 1, .edge 2, .edge 3, .edge 4, .edge 5]
    ref := [.face 0, .face 1, .face 2, .face 3]
    ftag := [.face 0, .face 1, .face 2, .face 3]
    ori := [.face 0, .face 1, .face 2, .face 3] }

def symSrc : Src Pos Sym Sym Sym :=
  { vx := .mid, ib := .centre, fs := .strip, zT := .zero, zR := .zero, one := .one }

/-- Interpretation of the symbolic values. -/
def homC (vx : Nat → Nat) (ib : Nat) (fs : Nat → BitVec 16) (t : CTet) :
    Hom Pos Sym Sym Sym Nat (BitVec 16) Int Bool where
  fV := val t vx ib
  fT
    | .edge e => t.tag.getD e 0
    | .face f => t.ftag.getD f 0
    | .strip f => fs f
    | _ => 0
  fE
    | .edge e => t.edg.getD e 0
    | .face f => t.ref.getD f 0
    | _ => 0
  fB
    | .face f => t.ori.getD f false
    | _ => true

theorem list4 {α : Type} (d : α) {l : List α} (h : l.length = 4) :
    l = [l.getD 0 d, l.getD 1 d, l.getD 2 d, l.getD 3 d] := by
  match l, h with
  | [a, b, c, e], _ => rfl

theorem list6 {α : Type} (d : α) {l : List α} (h : l.length = 6) :
    l = [l.getD 0 d, l.getD 1 d, l.getD 2 d, l.getD 3 d, l.getD 4 d, l.getD 5 d] := by
  match l, h with
  | [a, b, c, e, f, g], _ => rfl

theorem homC_tet (vx : Nat → Nat) (ib : Nat) (fs : Nat → BitVec 16) {t : CTet} (wf : WF t) :
    (homC vx ib fs t).tet symTet = t := by
  obtain ⟨v, tag, edg, ref, ftag, ori⟩ := t
  have h1 := list4 0 wf.v
  have h2 := list6 0 wf.tag
  have h3 := list6 0 wf.edg
  have h4 := list4 0 wf.ref
  have h5 := list4 0 wf.ftag
  have h6 := list4 false wf.ori
  simp only at h1 h2 h3 h4 h5 h6
  simp only [Hom.tet, symTet, homC, List.map_cons, List.map_nil, val]
  rw [← h1, ← h2, ← h3, ← h4, ← h5, ← h6]

theorem homC_src (flag : Nat) (junk : Nat → BitVec 16) (vx : Nat → Nat) (ib : Nat) (t : CTet) :
    (homC vx ib (ftagLocal flag junk t) t).Src symSrc (srcC flag junk vx ib t) :=
  ⟨fun _ => rfl, rfl, fun _ => rfl, rfl, rfl, rfl⟩

/-! ### The runs only depend on finitely many comparisons -/

/-- Comparisons made by the split selected by `flag`. -/
def queries (flag : Nat) : List (Nat × Nat) :=
  if flag ∈ [48, 24, 40, 6, 34, 36, 20, 5, 17, 9, 3, 10] then
    [((cfg2sf flag).L 1, (cfg2sf flag).L 2)]
  else if flag ∈ [7, 25, 42, 52] then
    [((cfg3cone flag).L 1, (cfg3cone flag).L 2), ((cfg3cone flag).L 3, (cfg3cone flag).L 1),
      ((cfg3cone flag).L 3, (cfg3cone flag).L 2)]
  else if flag ∈ [35, 19, 13, 37, 22, 28, 26, 14, 49, 50, 44, 41] then
    [((cfg3op flag).L 0, (cfg3op flag).L 3), ((cfg3op flag).L 1, (cfg3op flag).L 2)]
  else if flag ∈ [23, 29, 53, 60, 57, 58, 27, 15, 43, 39, 54, 46] then
    [((cfg4sf flag).L 2, (cfg4sf flag).L 3), ((cfg4sf flag).L 1, (cfg4sf flag).L 2)]
  else if flag ∈ [30, 45, 51] then
    [((cfg4op flag).L 0, (cfg4op flag).L 1), ((cfg4op flag).L 2, (cfg4op flag).L 3)]
  else if flag ∈ [62, 61, 59, 55, 47, 31] then
    [((cfg5 flag).L 0, (cfg5 flag).L 1)]
  else []

/-- Comparisons given by a list of true ones. -/
def ltOf (cs : List (Nat × Nat)) : Cmp := fun i j => decide ((i, j) ∈ cs)

theorem ltOf_filter (lt : Cmp) (q : List (Nat × Nat)) {i j : Nat} (h : (i, j) ∈ q) :
    ltOf (q.filter fun p => lt p.1 p.2) i j = lt i j := by
  cases hl : lt i j <;> simp [ltOf, List.mem_filter, h, hl]

theorem imin_filter (lt : Cmp) (q : List (Nat × Nat)) {i j : Nat} (h : (i, j) ∈ q) :
    imin (ltOf (q.filter fun p => lt p.1 p.2)) i j = imin lt i j := by
  simp only [imin, ltOf_filter lt q h]

theorem cone_filter (lt : Cmp) (q : List (Nat × Nat)) {a b c : Nat} (h : (a, b) ∈ q)
    (h1 : (c, a) ∈ q) (h2 : (c, b) ∈ q) :
    cone (ltOf (q.filter fun p => lt p.1 p.2)) a b c = cone lt a b c := by
  simp only [cone, ltOf_filter lt q h]
  cases lt a b <;> simp [ltOf_filter lt q h1, ltOf_filter lt q h2]

theorem prog_filter (flag : Nat) (lt : Cmp) :
    prog flag (ltOf ((queries flag).filter fun p => lt p.1 p.2)) = prog flag lt ∧
    simList flag (ltOf ((queries flag).filter fun p => lt p.1 p.2)) = simList flag lt := by
  by_cases h1 : flag ∈ [1, 2, 4, 8, 16, 32]
  · simp only [prog, simList, if_pos h1, and_self]
  by_cases h2 : flag ∈ [48, 24, 40, 6, 34, 36, 20, 5, 17, 9, 3, 10]
  · have hq : queries flag = [((cfg2sf flag).L 1, (cfg2sf flag).L 2)] := by
      simp only [queries, if_pos h2]
    have e1 := imin_filter lt (queries flag) (i := (cfg2sf flag).L 1) (j := (cfg2sf flag).L 2)
      (by simp [hq])
    simp only [prog, simList, if_neg h1, if_pos h2, split2sf, e1, and_self]
  by_cases h3 : flag ∈ [33, 18, 12]
  · simp only [prog, simList, if_neg h1, if_neg h2, if_pos h3, and_self]
  by_cases h4 : flag ∈ [11, 21, 38, 56]
  · simp only [prog, simList, if_neg h1, if_neg h2, if_neg h3, if_pos h4, and_self]
  by_cases h5 : flag ∈ [7, 25, 42, 52]
  · have hq : queries flag = [((cfg3cone flag).L 1, (cfg3cone flag).L 2),
        ((cfg3cone flag).L 3, (cfg3cone flag).L 1), ((cfg3cone flag).L 3, (cfg3cone flag).L 2)] := by
      simp only [queries, if_neg h2, if_pos h5]
    have e1 := cone_filter lt (queries flag) (a := (cfg3cone flag).L 1) (b := (cfg3cone flag).L 2)
      (c := (cfg3cone flag).L 3) (by simp [hq]) (by simp [hq]) (by simp [hq])
    simp only [prog, simList, if_neg h1, if_neg h2, if_neg h3, if_neg h4, if_pos h5, split3cone, e1, and_self]
  by_cases h6 : flag ∈ [35, 19, 13, 37, 22, 28, 26, 14, 49, 50, 44, 41]
  · have hq : queries flag = [((cfg3op flag).L 0, (cfg3op flag).L 3),
        ((cfg3op flag).L 1, (cfg3op flag).L 2)] := by
      simp only [queries, if_neg h2, if_neg h5, if_pos h6]
    have e1 := imin_filter lt (queries flag) (i := (cfg3op flag).L 0) (j := (cfg3op flag).L 3)
      (by simp [hq])
    have e2 := imin_filter lt (queries flag) (i := (cfg3op flag).L 1) (j := (cfg3op flag).L 2)
      (by simp [hq])
    simp only [prog, simList, if_neg h1, if_neg h2, if_neg h3, if_neg h4, if_neg h5, if_pos h6, split3op, e1, e2, and_self]
  by_cases h7 : flag ∈ [23, 29, 53, 60, 57, 58, 27, 15, 43, 39, 54, 46]
  · have hq : queries flag = [((cfg4sf flag).L 2, (cfg4sf flag).L 3),
        ((cfg4sf flag).L 1, (cfg4sf flag).L 2)] := by
      simp only [queries, if_neg h2, if_neg h5, if_neg h6, if_pos h7]
    have e1 := imin_filter lt (queries flag) (i := (cfg4sf flag).L 2) (j := (cfg4sf flag).L 3)
      (by simp [hq])
    have e2 := imin_filter lt (queries flag) (i := (cfg4sf flag).L 1) (j := (cfg4sf flag).L 2)
      (by simp [hq])
    simp only [prog, simList, if_neg h1, if_neg h2, if_neg h3, if_neg h4, if_neg h5, if_neg h6, if_pos h7, split4sf, e1, e2, and_self]
  by_cases h8 : flag ∈ [30, 45, 51]
  · have hq : queries flag = [((cfg4op flag).L 0, (cfg4op flag).L 1),
        ((cfg4op flag).L 2, (cfg4op flag).L 3)] := by
      simp only [queries, if_neg h2, if_neg h5, if_neg h6, if_neg h7, if_pos h8]
    have e1 := imin_filter lt (queries flag) (i := (cfg4op flag).L 0) (j := (cfg4op flag).L 1)
      (by simp [hq])
    have e2 := imin_filter lt (queries flag) (i := (cfg4op flag).L 2) (j := (cfg4op flag).L 3)
      (by simp [hq])
    simp only [prog, simList, if_neg h1, if_neg h2, if_neg h3, if_neg h4, if_neg h5, if_neg h6, if_neg h7, if_pos h8, split4op, e1, e2, and_self]
  by_cases h9 : flag ∈ [62, 61, 59, 55, 47, 31]
  · have hq : queries flag = [((cfg5 flag).L 0, (cfg5 flag).L 1)] := by
      simp only [queries, if_neg h2, if_neg h5, if_neg h6, if_neg h7, if_neg h8, if_pos h9]
    have e1 := imin_filter lt (queries flag) (i := (cfg5 flag).L 0) (j := (cfg5 flag).L 1)
      (by simp [hq])
    simp only [prog, simList, if_neg h1, if_neg h2, if_neg h3, if_neg h4, if_neg h5, if_neg h6, if_neg h7, if_neg h8, if_pos h9, split5, e1, and_self]
  simp only [prog, simList, if_neg h1, if_neg h2, if_neg h3, if_neg h4, if_neg h5, if_neg h6, if_neg h7, if_neg h8, if_neg h9, and_self]

/-- All sub-lists. -/
def subs {α : Type} : List α → List (List α)
  | [] => [[]]
  | a :: l => (subs l).map (a :: ·) ++ subs l

theorem filter_mem_subs {α : Type} (p : α → Bool) (l : List α) : l.filter p ∈ subs l := by
  induction l with
  | nil => simp [subs]
  | cons a l ih =>
    cases h : p a
    · simp [subs, h, ih]
    · simp [subs, h, ih]

/-- Children of a symbolic run. -/
def kids (flag : Nat) (cs : List (Nat × Nat)) : List (Tet Pos Sym Sym Sym) :=
  match prog flag (ltOf cs) with
  | some p => exec p symSrc symTet
  | none => []

/-- A property of the symbolic runs, for all configurations. -/
def forRuns (P : Nat → List (Nat × Nat) → Bool) : Bool :=
  (List.range' 1 63).all fun f => (subs (queries f)).all fun cs => P f cs

theorem forRuns_spec {P : Nat → List (Nat × Nat) → Bool} (h : forRuns P = true) {flag : Nat}
    (h1 : 1 ≤ flag) (h2 : flag < 64) (lt : Cmp) :
    P flag ((queries flag).filter fun p => lt p.1 p.2) = true := by
  unfold forRuns at h
  rw [List.all_eq_true] at h
  have := h flag (by rw [List.mem_range'_1]; omega)
  rw [List.all_eq_true] at this
  exact this _ (filter_mem_subs _ _)

end Mmg.Split3
