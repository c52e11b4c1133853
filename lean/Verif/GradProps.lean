/-
Properties C35 and C53: gradation of isotropic size maps.
src/common/isosiz.c (Mmg2d and Mmgs) and src/mmg3d/isosiz_3d.c (Mmg3d).
-/
import Mathlib.Algebra.Order.Field.Basic
import Mathlib.Algebra.Order.AbsoluteValue.Basic
import Mathlib.Algebra.Order.Ring.Rat
import Mathlib.Algebra.Field.Rat
import Mathlib.Tactic.Linarith
import Mathlib.Tactic.IntervalCases
import Mathlib.Tactic.NormNum

set_option linter.unusedSectionVars false

namespace Mmg.Grad

/-! ### Model -/

/-- A triangle: `ok` is `MG_EOK`, vertices, and the bit `MG_REQ` of the tags of its edges. -/
structure Tria where
  ok : Bool
  v : Nat → Nat
  req : Nat → Bool

/-- A tetrahedron: `ok` is `MG_EOK`, `reqElt` the bit `MG_REQ` of its tag, `xt` tells whether it has boundary data and
`req` is the bit `MG_REQ` of the tags of its edges. -/
structure Tetra where
  ok : Bool
  reqElt : Bool
  xt : Bool
  v : Nat → Nat
  req : Nat → Bool

def upd {β : Type} (f : Nat → β) (k : Nat) (x : β) : Nat → β := fun j => if j = k then x else f j

def inxt2 (i : Nat) : Nat := if i = 0 then 1 else if i = 1 then 2 else 0
def iprv2 (i : Nat) : Nat := if i = 0 then 2 else if i = 1 then 0 else 1

/-- `MMG5_iare` and `MMG5_iarf` (mmg3d/libmmg3d_private.h 180, 184). -/
def iare : Nat → Nat × Nat
  | 0 => (0, 1) | 1 => (0, 2) | 2 => (0, 3) | 3 => (1, 2) | 4 => (1, 3) | _ => (2, 3)

def iarf : List Nat := [5, 4, 3, 5, 1, 2, 4, 2, 0, 3, 0, 1]

/-- The edges in the order in which the loops on triangles meet them (isosiz.c 306-317). -/
def triEdges (ts : List Tria) : List (Nat × Nat) :=
  (ts.filter (·.ok)).flatMap fun t => [0, 1, 2].map fun i => (t.v (inxt2 i), t.v (iprv2 i))

/-- The edges in the order in which the loops on tetrahedra meet them (isosiz_3d.c 1105-1117; `skipReq` is the test on
required elements, done in the first gradation only). -/
def tetEdges (skipReq : Bool) (ts : List Tetra) : List (Nat × Nat) :=
  (ts.filter fun t => t.ok && !(skipReq && t.reqElt)).flatMap fun t =>
    iarf.map fun ia => (t.v (iare ia).1, t.v (iare ia).2)

/-- One marking step. -/
def markPair (top : Nat) (s : Nat → Nat) (a b : Nat) : Nat → Nat := upd (upd s a top) b top

/-- `MMG5_mark_pointsOnReqEdge_fromTria` (isosiz.c 240-266). -/
def markTria (np : Nat) (ts : List Tria) (s : Nat → Nat) : Nat → Nat :=
  ts.foldl (fun s t => if t.ok then
      [0, 1, 2].foldl (fun s i => if t.req i then
        markPair (3 * ts.length + 2) s (t.v (inxt2 i)) (t.v (iprv2 i)) else s) s
    else s) (fun k => if 1 ≤ k ∧ k ≤ np then 0 else s k)

/-- `MMG3D_mark_pointsOnReqEdge_fromTetra` (isosiz_3d.c 1047-1073). -/
def markTetra (np : Nat) (ts : List Tetra) (s : Nat → Nat) : Nat → Nat :=
  ts.foldl (fun s t => if t.ok && t.xt then
      [0, 1, 2, 3, 4, 5].foldl (fun s i => if t.req i then
        markPair (4 * ts.length + 3) s (t.v (iare i).1) (t.v (iare i).2) else s) s
    else s) (fun k => if 1 ≤ k ∧ k ≤ np then 0 else s k)

section
variable {K : Type} [Field K] [LinearOrder K]

/-- Sizes, flags and number of updates of the current pass. -/
structure GSt (K : Type) where
  h : Nat → K
  flag : Nat → Nat
  nu : Nat

/-- Treatment of one edge (isosiz.c 318-349, isosiz_3d.c 1118-1147). `len a b` is the length of the edge. -/
def edgeStep (eps hgrad : K) (len : Nat → Nat → K) (s : Nat → Nat) (base : Nat) (g : GSt K) (e : Nat × Nat) : GSt K :=
  if g.flag e.1 < base - 1 ∧ g.flag e.2 < base - 1 then g
  else if s e.1 ≠ 0 ∨ s e.2 ≠ 0 then g
  else if g.h e.1 < g.h e.2 then
    if g.h e.1 < eps then g
    else
      let hn := g.h e.1 + hgrad * len e.1 e.2
      if g.h e.2 > hn then ⟨upd g.h e.2 hn, upd g.flag e.2 base, g.nu + 1⟩ else g
  else
    if g.h e.2 < eps then g
    else
      let hn := g.h e.2 + hgrad * len e.1 e.2
      if g.h e.1 > hn then ⟨upd g.h e.1 hn, upd g.flag e.1 base, g.nu + 1⟩ else g

/-- One pass. -/
def pass (eps hgrad : K) (len : Nat → Nat → K) (s : Nat → Nat) (es : List (Nat × Nat)) (base : Nat) (g : GSt K) :
    GSt K := es.foldl (edgeStep eps hgrad len s base) { g with nu := 0 }

/-- The do-while loop with at most `n + 1` passes; `base` is the value before the loop. -/
def passes (eps hgrad : K) (len : Nat → Nat → K) (s : Nat → Nat) (es : List (Nat × Nat)) :
    Nat → Nat → GSt K → Nat × GSt K
  | 0, base, g => (base + 1, pass eps hgrad len s es (base + 1) g)
  | n + 1, base, g =>
    let g' := pass eps hgrad len s es (base + 1) g
    if g'.nu > 0 then passes eps hgrad len s es n (base + 1) g' else (base + 1, g')

/-- `MMG5_gradsiz_iso` (isosiz.c 278-360) and `MMG3D_gradsiz_iso` (isosiz_3d.c 1083-1158) after the marking: the flags of
all points are set to `base`, then at most 100 passes. -/
def gradsiz (eps hgrad : K) (len : Nat → Nat → K) (s : Nat → Nat) (es : List (Nat × Nat)) (base : Nat)
    (h : Nat → K) : Nat × GSt K :=
  passes eps hgrad len s es 99 base ⟨h, fun _ => base, 0⟩

/-- Treatment of one edge by the gradation from required vertices (isosiz.c 413-449, isosiz_3d.c 1208-1245). `len` is the
length used by the code. State: sizes, marks, number of updates. -/
def reqStep (eps hgrad : K) (len : Nat → Nat → K) (g : GSt K) (e : Nat × Nat) : GSt K :=
  let s := g.flag
  if ((s e.1 : Int) - s e.2).natAbs < 2 then g
  else
    let master := if s e.1 > s e.2 then e.1 else e.2
    let slave := if s e.1 > s e.2 then e.2 else e.1
    let ll := len e.1 e.2
    let h1 := g.h master
    let h2 := g.h slave
    let set (hn : K) : GSt K := ⟨upd g.h slave hn, upd s slave (s master - 1), g.nu + 1⟩
    if h1 < h2 then
      if h1 < eps then g
      else if h2 ≤ h1 + hgrad * ll then g
      else set (h1 + hgrad * ll)
    else if h2 ≥ h1 - hgrad * ll then g
    else set (h1 - hgrad * ll)

/-- The do-while loop of `MMG5_gradsizreq_iso` (isosiz.c 372-461) and `MMG3D_gradsizreq_iso` (isosiz_3d.c 1168-1261);
the field `flag` holds the marks `s`. -/
def reqPasses (eps hgrad : K) (len : Nat → Nat → K) (es : List (Nat × Nat)) : Nat → GSt K → GSt K
  | 0, g => es.foldl (reqStep eps hgrad len) { g with nu := 0 }
  | n + 1, g =>
    let g' := es.foldl (reqStep eps hgrad len) { g with nu := 0 }
    if g'.nu > 0 then reqPasses eps hgrad len es n g' else g'

def gradsizreq (eps hgrad : K) (len : Nat → Nat → K) (es : List (Nat × Nat)) (s : Nat → Nat) (h : Nat → K) : GSt K :=
  reqPasses eps hgrad len es 99 ⟨h, s, 0⟩

/-! ### Specification -/

/-- The gradation bound along an edge. -/
def Graded (hgrad : K) (len : Nat → Nat → K) (h : Nat → K) (e : Nat × Nat) : Prop :=
  |h e.1 - h e.2| ≤ hgrad * len e.1 e.2

/-- A vertex of a required edge. -/
def OnReqTria (ts : List Tria) (p : Nat) : Prop :=
  ∃ t ∈ ts, t.ok = true ∧ ∃ i < 3, t.req i = true ∧ (p = t.v (inxt2 i) ∨ p = t.v (iprv2 i))

def OnReqTetra (ts : List Tetra) (p : Nat) : Prop :=
  ∃ t ∈ ts, t.ok = true ∧ t.xt = true ∧ ∃ i < 6, t.req i = true ∧ (p = t.v (iare i).1 ∨ p = t.v (iare i).2)

variable [IsStrictOrderedRing K]

/-! ### Lemmas -/

section
variable {eps hgrad : K} {len : Nat → Nat → K} {s : Nat → Nat}

/-- A step leaves everything alone or lowers one size towards the other end of the edge. -/
theorem edgeStep_spec (base : Nat) (g : GSt K) (e : Nat × Nat) :
    (edgeStep eps hgrad len s base g e = g ∧
      ((g.flag e.1 < base - 1 ∧ g.flag e.2 < base - 1) ∨ (s e.1 ≠ 0 ∨ s e.2 ≠ 0) ∨
        (g.h e.1 < eps ∨ g.h e.2 < eps) ∨ (0 ≤ hgrad * len e.1 e.2 → Graded hgrad len g.h e))) ∨
    ∃ x y, ((x = e.1 ∧ y = e.2) ∨ (x = e.2 ∧ y = e.1)) ∧ s e.1 = 0 ∧ s e.2 = 0 ∧ eps ≤ g.h y ∧ g.h y ≤ g.h x ∧
      g.h y + hgrad * len e.1 e.2 < g.h x ∧
      edgeStep eps hgrad len s base g e =
        ⟨upd g.h x (g.h y + hgrad * len e.1 e.2), upd g.flag x base, g.nu + 1⟩ := by
  unfold edgeStep
  by_cases h1 : g.flag e.1 < base - 1 ∧ g.flag e.2 < base - 1
  · rw [if_pos h1]; exact .inl ⟨rfl, .inl h1⟩
  rw [if_neg h1]
  by_cases h2 : s e.1 ≠ 0 ∨ s e.2 ≠ 0
  · rw [if_pos h2]; exact .inl ⟨rfl, .inr (.inl h2)⟩
  rw [if_neg h2]
  rw [not_or, not_not, not_not] at h2
  by_cases h3 : g.h e.1 < g.h e.2
  · rw [if_pos h3]
    by_cases h4 : g.h e.1 < eps
    · rw [if_pos h4]; exact .inl ⟨rfl, .inr (.inr (.inl (.inl h4)))⟩
    rw [if_neg h4]
    dsimp only
    by_cases h5 : g.h e.2 > g.h e.1 + hgrad * len e.1 e.2
    · rw [if_pos h5]
      exact .inr ⟨e.2, e.1, .inr ⟨rfl, rfl⟩, h2.1, h2.2, not_lt.1 h4, h3.le, h5, rfl⟩
    · rw [if_neg h5]
      refine .inl ⟨rfl, .inr (.inr (.inr fun hp => ?_))⟩
      unfold Graded
      rw [abs_le]
      constructor <;> linarith
  · rw [if_neg h3]
    by_cases h4 : g.h e.2 < eps
    · rw [if_pos h4]; exact .inl ⟨rfl, .inr (.inr (.inl (.inr h4)))⟩
    rw [if_neg h4]
    dsimp only
    by_cases h5 : g.h e.1 > g.h e.2 + hgrad * len e.1 e.2
    · rw [if_pos h5]
      exact .inr ⟨e.1, e.2, .inl ⟨rfl, rfl⟩, h2.1, h2.2, not_lt.1 h4, not_lt.1 h3, h5, rfl⟩
    · rw [if_neg h5]
      refine .inl ⟨rfl, .inr (.inr (.inr fun hp => ?_))⟩
      unfold Graded
      rw [abs_le]
      constructor <;> linarith

/-- Relation kept by every step: sizes decrease, never below a common lower bound, marked vertices do not change. -/
structure Lower (s : Nat → Nat) (h h' : Nat → K) : Prop where
  le : ∀ k, h' k ≤ h k
  marked : ∀ k, s k ≠ 0 → h' k = h k
  bound : ∀ m, (∀ k, m ≤ h k) → ∀ k, m ≤ h' k
  reached : ∀ k, h' k = h k ∨ ∃ j, h j ≤ h' k

theorem Lower.refl (h : Nat → K) : Lower s h h :=
  ⟨fun _ => le_refl _, fun _ _ => rfl, fun _ hm => hm, fun _ => .inl rfl⟩

theorem Lower.step (hp : ∀ a b, 0 ≤ hgrad * len a b) {h0 : Nat → K} {base : Nat} {g : GSt K} {e : Nat × Nat}
    (hl : Lower s h0 g.h) : Lower s h0 (edgeStep eps hgrad len s base g e).h := by
  rcases edgeStep_spec (eps := eps) (hgrad := hgrad) (len := len) (s := s) base g e with
    ⟨h1, _⟩ | ⟨x, y, hxy, s1, s2, he, hle, hlt, heq⟩
  · rw [h1]; exact hl
  · rw [heq]
    have hsx : s x = 0 := by rcases hxy with ⟨rfl, _⟩ | ⟨rfl, _⟩ <;> assumption
    have hpos := hp e.1 e.2
    refine ⟨?_, ?_, ?_, ?_⟩
    · intro k
      dsimp only [upd]
      split_ifs with hk
      · subst hk; exact hlt.le.trans (hl.le k)
      · exact hl.le k
    · intro k hk
      dsimp only [upd]
      rw [if_neg (fun h : k = x => hk (by rw [h]; exact hsx))]
      exact hl.marked k hk
    · intro m hm k
      dsimp only [upd]
      split_ifs with hk
      · exact (hl.bound m hm y).trans (le_add_of_nonneg_right hpos)
      · exact hl.bound m hm k
    · intro k
      dsimp only [upd]
      split_ifs with hk
      · right
        rcases hl.reached y with hy | ⟨j, hj⟩
        · exact ⟨y, by rw [hy]; exact le_add_of_nonneg_right hpos⟩
        · exact ⟨j, hj.trans (le_add_of_nonneg_right hpos)⟩
      · exact hl.reached k

theorem Lower.pass (hp : ∀ a b, 0 ≤ hgrad * len a b) {h0 : Nat → K} {base : Nat} {g : GSt K} (es : List (Nat × Nat))
    (hl : Lower s h0 g.h) : Lower s h0 (es.foldl (edgeStep eps hgrad len s base) g).h := by
  induction es generalizing g with
  | nil => exact hl
  | cons e es ih => exact ih (Lower.step hp hl)

theorem Lower.passes (hp : ∀ a b, 0 ≤ hgrad * len a b) {h0 : Nat → K} (es : List (Nat × Nat)) (n : Nat) :
    ∀ {base : Nat} {g : GSt K}, Lower s h0 g.h → Lower s h0 (Grad.passes eps hgrad len s es n base g).2.h := by
  induction n with
  | zero => intro base g hl; exact Lower.pass hp es (g := { g with nu := 0 }) hl
  | succ n ih =>
    intro base g hl
    simp only [Grad.passes]
    have h1 : Lower s h0 (Grad.pass eps hgrad len s es (base + 1) g).h :=
      Lower.pass hp es (g := { g with nu := 0 }) hl
    split_ifs
    · exact ih h1
    · exact h1

/-- An edge that does not need any work. -/
def Fine (eps hgrad : K) (len : Nat → Nat → K) (s : Nat → Nat) (h : Nat → K) (e : Nat × Nat) : Prop :=
  (s e.1 ≠ 0 ∨ s e.2 ≠ 0) ∨ (h e.1 < eps ∨ h e.2 < eps) ∨ Graded hgrad len h e

theorem Fine.congr {h h' : Nat → K} {e : Nat × Nat} (h1 : h' e.1 = h e.1) (h2 : h' e.2 = h e.2)
    (hf : Fine eps hgrad len s h e) : Fine eps hgrad len s h' e := by
  unfold Fine Graded at *; rw [h1, h2]; exact hf

/-- Invariant of a pass: flags are at most `base`, edges already seen are fine or have a vertex changed in this pass,
the others are fine or have a vertex changed in this pass or the previous one; if nothing was changed in this pass no
flag is `base`. -/
structure PassInv (eps hgrad : K) (len : Nat → Nat → K) (s : Nat → Nat) (base : Nat) (seen todo : List (Nat × Nat))
    (g : GSt K) : Prop where
  flag : ∀ k, g.flag k ≤ base
  seen : ∀ e ∈ seen, Fine eps hgrad len s g.h e ∨ g.flag e.1 = base ∨ g.flag e.2 = base
  todo : ∀ e ∈ todo, Fine eps hgrad len s g.h e ∨ base - 1 ≤ g.flag e.1 ∨ base - 1 ≤ g.flag e.2
  idle : g.nu = 0 → ∀ k, g.flag k < base

theorem PassInv.step (hp : ∀ a b, 0 ≤ hgrad * len a b) {base : Nat} {seen todo : List (Nat × Nat)} {e : Nat × Nat}
    {g : GSt K} (hi : PassInv eps hgrad len s base seen (e :: todo) g) :
    PassInv eps hgrad len s base (e :: seen) todo (edgeStep eps hgrad len s base g e) := by
  rcases edgeStep_spec (eps := eps) (hgrad := hgrad) (len := len) (s := s) base g e with
    ⟨h1, h2⟩ | ⟨x, y, hxy, s1, s2, he, hle, hlt, heq⟩
  · rw [h1]
    refine ⟨hi.flag, ?_, fun e' h => hi.todo e' (List.mem_cons_of_mem _ h), hi.idle⟩
    intro e' he'
    rcases List.mem_cons.1 he' with rfl | he'
    · rcases h2 with h2 | h2 | h2 | h2
      · rcases hi.todo _ List.mem_cons_self with h | h | h
        · exact .inl h
        · exact absurd h2.1 (not_lt.2 h)
        · exact absurd h2.2 (not_lt.2 h)
      · exact .inl (.inl h2)
      · exact .inl (.inr (.inl h2))
      · exact .inl (.inr (.inr (h2 (hp _ _))))
    · exact hi.seen e' he'
  · rw [heq]
    have other : ∀ e' : Nat × Nat, ¬ (e'.1 = x ∨ e'.2 = x) → Fine eps hgrad len s g.h e' →
        Fine eps hgrad len s (upd g.h x (g.h y + hgrad * len e.1 e.2)) e' := by
      intro e' hn hf
      rw [not_or] at hn
      exact hf.congr (by simp [upd, hn.1]) (by simp [upd, hn.2])
    have fl : ∀ e' : Nat × Nat, e'.1 = x ∨ e'.2 = x → upd g.flag x base e'.1 = base ∨ upd g.flag x base e'.2 = base := by
      rintro e' (h | h)
      · left; simp [upd, h]
      · right; simp [upd, h]
    refine ⟨?_, ?_, ?_, ?_⟩
    · intro k
      dsimp only [upd]
      split_ifs
      · exact le_refl _
      · exact hi.flag k
    · intro e' he'
      dsimp only
      by_cases hx : e'.1 = x ∨ e'.2 = x
      · exact .inr (fl e' hx)
      · rcases List.mem_cons.1 he' with rfl | he'
        · exfalso
          rcases hxy with ⟨h, _⟩ | ⟨h, _⟩
          · exact hx (.inl h.symm)
          · exact hx (.inr h.symm)
        · rcases hi.seen e' he' with h | h | h
          · exact .inl (other e' hx h)
          · right; left
            rw [not_or] at hx
            simpa [upd, hx.1] using h
          · right; right
            rw [not_or] at hx
            simpa [upd, hx.2] using h
    · intro e' he'
      dsimp only
      by_cases hx : e'.1 = x ∨ e'.2 = x
      · rcases fl e' hx with h | h
        · right; left; rw [h]; omega
        · right; right; rw [h]; omega
      · have h := hi.todo e' (List.mem_cons_of_mem _ he')
        have hx' := not_or.1 hx
        rcases h with h | h | h
        · exact .inl (other e' hx h)
        · right; left; simpa [upd, hx'.1] using h
        · right; right; simpa [upd, hx'.2] using h
    · intro h; simp at h

theorem PassInv.pass (hp : ∀ a b, 0 ≤ hgrad * len a b) {base : Nat} :
    ∀ {todo seen : List (Nat × Nat)} {g : GSt K}, PassInv eps hgrad len s base seen todo g →
      PassInv eps hgrad len s base (todo.reverse ++ seen) [] (todo.foldl (edgeStep eps hgrad len s base) g) := by
  intro todo
  induction todo with
  | nil => intro seen g h; exact h
  | cons e todo ih =>
    intro seen g h
    have := ih (PassInv.step hp h)
    simpa [List.reverse_cons, List.append_assoc] using this

theorem passes_inv (hp : ∀ a b, 0 ≤ hgrad * len a b) (es : List (Nat × Nat)) (n : Nat) :
    ∀ {base : Nat} {g : GSt K}, (∀ k, g.flag k ≤ base) →
      (∀ e ∈ es, Fine eps hgrad len s g.h e ∨ base ≤ g.flag e.1 ∨ base ≤ g.flag e.2) →
      (passes eps hgrad len s es n base g).2.nu = 0 →
      ∀ e ∈ es, Fine eps hgrad len s (passes eps hgrad len s es n base g).2.h e := by
  have one : ∀ {base : Nat} {g : GSt K}, (∀ k, g.flag k ≤ base) →
      (∀ e ∈ es, Fine eps hgrad len s g.h e ∨ base ≤ g.flag e.1 ∨ base ≤ g.flag e.2) →
      PassInv eps hgrad len s (base + 1) (es.reverse ++ []) [] (pass eps hgrad len s es (base + 1) g) := by
    intro base g h1 h2
    refine PassInv.pass hp (g := { g with nu := 0 }) ⟨fun k => (h1 k).trans (Nat.le_succ _), ?_, ?_, ?_⟩
    · intro e he; simp at he
    · exact h2
    · intro _ k; exact Nat.lt_succ_of_le (h1 k)
  have fin : ∀ {base : Nat} {g : GSt K}, (∀ k, g.flag k ≤ base) →
      (∀ e ∈ es, Fine eps hgrad len s g.h e ∨ base ≤ g.flag e.1 ∨ base ≤ g.flag e.2) →
      (pass eps hgrad len s es (base + 1) g).nu = 0 →
      ∀ e ∈ es, Fine eps hgrad len s (pass eps hgrad len s es (base + 1) g).h e := by
    intro base g h1 h2 h3 e he
    have hi := one h1 h2
    rcases hi.seen e (by simpa using he) with h | h | h
    · exact h
    · exact absurd h (Nat.ne_of_lt (hi.idle h3 _))
    · exact absurd h (Nat.ne_of_lt (hi.idle h3 _))
  induction n with
  | zero => intro base g h1 h2 h3; exact fin h1 h2 h3
  | succ n ih =>
    intro base g h1 h2
    simp only [passes]
    split_ifs with hnu
    · intro h3
      have hi := one h1 h2
      refine ih hi.flag ?_ h3
      intro e he
      rcases hi.seen e (by simpa using he) with h | h | h
      · exact .inl h
      · exact .inr (.inl h.ge)
      · exact .inr (.inr h.ge)
    · intro h3; exact fin h1 h2 h3

/-- Vertices joined in one of the elements. -/
theorem mem_triEdges {ts : List Tria} {t : Tria} (ht : t ∈ ts) (hok : t.ok = true) {i j : Nat} (hi : i < 3) (hj : j < 3)
    (hij : i ≠ j) : (t.v i, t.v j) ∈ triEdges ts ∨ (t.v j, t.v i) ∈ triEdges ts := by
  have mem : ∀ k < 3, (t.v (inxt2 k), t.v (iprv2 k)) ∈ triEdges ts := by
    intro k hk
    refine List.mem_flatMap.2 ⟨t, List.mem_filter.2 ⟨ht, hok⟩, List.mem_map.2 ⟨k, ?_, rfl⟩⟩
    interval_cases k <;> simp
  have m0 : (t.v 1, t.v 2) ∈ triEdges ts := mem 0 (by decide)
  have m1 : (t.v 2, t.v 0) ∈ triEdges ts := mem 1 (by decide)
  have m2 : (t.v 0, t.v 1) ∈ triEdges ts := mem 2 (by decide)
  interval_cases i <;> interval_cases j <;> simp_all

theorem mem_tetEdges {b : Bool} {ts : List Tetra} {t : Tetra} (ht : t ∈ ts) (hok : t.ok = true)
    (hr : (b && t.reqElt) = false) {i j : Nat} (hi : i < 4) (hj : j < 4)
    (hij : i ≠ j) : (t.v i, t.v j) ∈ tetEdges b ts ∨ (t.v j, t.v i) ∈ tetEdges b ts := by
  have mem : ∀ k < 6, (t.v (iare k).1, t.v (iare k).2) ∈ tetEdges b ts := by
    intro k hk
    refine List.mem_flatMap.2 ⟨t, List.mem_filter.2 ⟨ht, by simp [hok, hr]⟩, List.mem_map.2 ⟨k, ?_, rfl⟩⟩
    interval_cases k <;> simp [iarf]
  have m0 : (t.v 0, t.v 1) ∈ tetEdges b ts := mem 0 (by decide)
  have m1 : (t.v 0, t.v 2) ∈ tetEdges b ts := mem 1 (by decide)
  have m2 : (t.v 0, t.v 3) ∈ tetEdges b ts := mem 2 (by decide)
  have m3 : (t.v 1, t.v 2) ∈ tetEdges b ts := mem 3 (by decide)
  have m4 : (t.v 1, t.v 3) ∈ tetEdges b ts := mem 4 (by decide)
  have m5 : (t.v 2, t.v 3) ∈ tetEdges b ts := mem 5 (by decide)
  interval_cases i <;> interval_cases j <;> simp_all

/-- Marking with a list of conditions. -/
theorem mark_inner {top : Nat} (ht : top ≠ 0) (req : Nat → Bool) (f g : Nat → Nat) (l : List Nat) (s : Nat → Nat)
    (k : Nat) : (l.foldl (fun s i => if req i then markPair top s (f i) (g i) else s) s) k ≠ 0 ↔
      s k ≠ 0 ∨ ∃ i ∈ l, req i = true ∧ (k = f i ∨ k = g i) := by
  induction l generalizing s with
  | nil => simp
  | cons a l ih =>
    rw [List.foldl_cons, ih]
    have h1 : (if req a then markPair top s (f a) (g a) else s) k ≠ 0 ↔
        s k ≠ 0 ∨ (req a = true ∧ (k = f a ∨ k = g a)) := by
      by_cases hr : req a = true
      · rw [if_pos hr]
        unfold markPair upd
        by_cases h2 : k = g a
        · simp [h2, ht, hr]
        · by_cases h3 : k = f a
          · simp [h3, ht, hr]
          · simp [h2, h3]
      · simp [hr]
    rw [h1, or_assoc]
    simp only [List.mem_cons, exists_eq_or_imp]

theorem mark_outer {α : Type} (P : α → Bool) (G : α → (Nat → Nat) → Nat → Nat) (Q : α → Nat → Prop)
    (hG : ∀ t s k, G t s k ≠ 0 ↔ s k ≠ 0 ∨ Q t k) (l : List α) (s : Nat → Nat) (k : Nat) :
    (l.foldl (fun s t => if P t then G t s else s) s) k ≠ 0 ↔ s k ≠ 0 ∨ ∃ t ∈ l, P t = true ∧ Q t k := by
  induction l generalizing s with
  | nil => simp
  | cons a l ih =>
    rw [List.foldl_cons, ih]
    have h1 : (if P a then G a s else s) k ≠ 0 ↔ s k ≠ 0 ∨ (P a = true ∧ Q a k) := by
      by_cases hp : P a = true
      · rw [if_pos hp, hG]; simp [hp]
      · simp [hp]
    rw [h1, or_assoc]
    simp only [List.mem_cons, exists_eq_or_imp]

/-- The marked vertices are the vertices of required edges. -/
theorem markTria_iff (np : Nat) (ts : List Tria) (s : Nat → Nat) {k : Nat} (h1 : 1 ≤ k) (h2 : k ≤ np) :
    markTria np ts s k ≠ 0 ↔ OnReqTria ts k := by
  unfold markTria
  rw [mark_outer (fun t : Tria => t.ok) _ (fun t k => ∃ i ∈ [0, 1, 2], t.req i = true ∧
    (k = t.v (inxt2 i) ∨ k = t.v (iprv2 i)))
    (fun t s k => mark_inner (by omega) t.req (fun i => t.v (inxt2 i)) (fun i => t.v (iprv2 i)) _ s k)]
  rw [if_pos ⟨h1, h2⟩]
  simp only [ne_eq, not_true, false_or]
  unfold OnReqTria
  constructor
  · rintro ⟨t, ht, hok, i, hi, h⟩
    refine ⟨t, ht, hok, i, ?_, h⟩
    simp only [List.mem_cons, List.not_mem_nil, or_false] at hi; omega
  · rintro ⟨t, ht, hok, i, hi, h⟩
    refine ⟨t, ht, hok, i, ?_, h⟩
    simp only [List.mem_cons, List.not_mem_nil, or_false]; omega

theorem markTetra_iff (np : Nat) (ts : List Tetra) (s : Nat → Nat) {k : Nat} (h1 : 1 ≤ k) (h2 : k ≤ np) :
    markTetra np ts s k ≠ 0 ↔ OnReqTetra ts k := by
  unfold markTetra
  rw [mark_outer (fun t : Tetra => t.ok && t.xt) _ (fun t k => ∃ i ∈ [0, 1, 2, 3, 4, 5], t.req i = true ∧
    (k = t.v (iare i).1 ∨ k = t.v (iare i).2))
    (fun t s k => mark_inner (by omega) t.req (fun i => t.v (iare i).1) (fun i => t.v (iare i).2) _ s k)]
  rw [if_pos ⟨h1, h2⟩]
  simp only [ne_eq, not_true, false_or]
  unfold OnReqTetra
  constructor
  · rintro ⟨t, ht, hok, i, hi, h⟩
    rw [Bool.and_eq_true] at hok
    refine ⟨t, ht, hok.1, hok.2, i, ?_, h⟩
    simp only [List.mem_cons, List.not_mem_nil, or_false] at hi; omega
  · rintro ⟨t, ht, hok, hxt, i, hi, h⟩
    refine ⟨t, ht, by rw [hok, hxt]; rfl, i, ?_, h⟩
    simp only [List.mem_cons, List.not_mem_nil, or_false]; omega

/-! ### C35: gradation -/

/-- The gradation over any list of edges: sizes never increase, marked vertices keep their size, a common lower bound
stays one, a vertex of minimal size keeps its size, and if the last pass changed nothing then the sizes at the ends of
every edge between unmarked vertices differ by at most `hgrad` times its length. -/
theorem C35_edges {eps hgrad : K} {len : Nat → Nat → K} (hg : 0 ≤ hgrad) (hlen : ∀ a b, 0 ≤ len a b)
    (s : Nat → Nat) (es : List (Nat × Nat)) (base : Nat) (h : Nat → K) :
    (∀ k, (gradsiz eps hgrad len s es base h).2.h k ≤ h k) ∧
    (∀ k, s k ≠ 0 → (gradsiz eps hgrad len s es base h).2.h k = h k) ∧
    (∀ m, (∀ k, m ≤ h k) → ∀ k, m ≤ (gradsiz eps hgrad len s es base h).2.h k) ∧
    (∀ k, (∀ j, h k ≤ h j) → (gradsiz eps hgrad len s es base h).2.h k = h k) ∧
    ((gradsiz eps hgrad len s es base h).2.nu = 0 → (∀ k, eps ≤ h k) → ∀ e ∈ es, s e.1 = 0 → s e.2 = 0 →
      Graded hgrad len (gradsiz eps hgrad len s es base h).2.h e) := by
  have hp : ∀ a b, 0 ≤ hgrad * len a b := fun a b => mul_nonneg hg (hlen a b)
  have hl : Lower s h (gradsiz eps hgrad len s es base h).2.h :=
    Lower.passes hp es 99 (g := ⟨h, fun _ => base, 0⟩) (Lower.refl h)
  refine ⟨hl.le, hl.marked, hl.bound, ?_, ?_⟩
  · intro k hk
    exact le_antisymm (hl.le k) (hl.bound (h k) hk k)
  · intro hnu heps e he s1 s2
    have hf := passes_inv (eps := eps) (hgrad := hgrad) (len := len) (s := s) hp es 99 (base := base)
      (g := ⟨h, fun _ => base, 0⟩) (fun _ => le_refl _) (fun _ _ => .inr (.inl (le_refl _))) hnu e he
    rcases hf with hf | hf | hf
    · rcases hf with hf | hf
      · exact absurd s1 hf
      · exact absurd s2 hf
    · rcases hf with hf | hf
      · exact absurd hf (not_lt.2 (hl.bound eps heps _))
      · exact absurd hf (not_lt.2 (hl.bound eps heps _))
    · exact hf

theorem graded_symm {hgrad : K} {len : Nat → Nat → K} (hsym : ∀ a b, len a b = len b a) {h : Nat → K} {a b : Nat}
    (hg : Graded hgrad len h (a, b) ∨ Graded hgrad len h (b, a)) : |h a - h b| ≤ hgrad * len a b := by
  rcases hg with hg | hg
  · exact hg
  · unfold Graded at hg
    rw [abs_sub_comm, hsym]; exact hg

/-- Gradation in Mmg2d and Mmgs. -/
theorem C35_triangles {eps hgrad : K} {len : Nat → Nat → K} (hg : 0 ≤ hgrad) (hlen : ∀ a b, 0 ≤ len a b)
    (hsym : ∀ a b, len a b = len b a) (np : Nat) (ts : List Tria) (s0 : Nat → Nat) (base : Nat) (h : Nat → K) :
    let r := gradsiz eps hgrad len (markTria np ts s0) (triEdges ts) base h
    (∀ k, r.2.h k ≤ h k) ∧
    (∀ k, 1 ≤ k → k ≤ np → OnReqTria ts k → r.2.h k = h k) ∧
    (∀ k, (∀ j, h k ≤ h j) → r.2.h k = h k) ∧
    (r.2.nu = 0 → (∀ k, eps ≤ h k) → ∀ t ∈ ts, t.ok = true → ∀ i < 3, ∀ j < 3, i ≠ j →
      1 ≤ t.v i ∧ t.v i ≤ np ∧ ¬ OnReqTria ts (t.v i) → 1 ≤ t.v j ∧ t.v j ≤ np ∧ ¬ OnReqTria ts (t.v j) →
      |r.2.h (t.v i) - r.2.h (t.v j)| ≤ hgrad * len (t.v i) (t.v j)) := by
  intro r
  obtain ⟨a, b, _, d, e⟩ := C35_edges (eps := eps) hg hlen (markTria np ts s0) (triEdges ts) base h
  refine ⟨a, fun k k1 k2 hk => b k ((markTria_iff np ts s0 k1 k2).2 hk), d, ?_⟩
  intro hnu heps t ht hok i hi j hj hij ⟨vi1, vi2, vi3⟩ ⟨vj1, vj2, vj3⟩
  have zi : markTria np ts s0 (t.v i) = 0 := by
    by_contra hc; exact vi3 ((markTria_iff np ts s0 vi1 vi2).1 hc)
  have zj : markTria np ts s0 (t.v j) = 0 := by
    by_contra hc; exact vj3 ((markTria_iff np ts s0 vj1 vj2).1 hc)
  apply graded_symm hsym
  rcases mem_triEdges ht hok hi hj hij with hm | hm
  · exact .inl (e hnu heps _ hm zi zj)
  · exact .inr (e hnu heps _ hm zj zi)

/-- Gradation in Mmg3d: the bound is enforced in the tetrahedra that are not required. -/
theorem C35_tetrahedra {eps hgrad : K} {len : Nat → Nat → K} (hg : 0 ≤ hgrad) (hlen : ∀ a b, 0 ≤ len a b)
    (hsym : ∀ a b, len a b = len b a) (np : Nat) (ts : List Tetra) (s0 : Nat → Nat) (base : Nat) (h : Nat → K) :
    let r := gradsiz eps hgrad len (markTetra np ts s0) (tetEdges true ts) base h
    (∀ k, r.2.h k ≤ h k) ∧
    (∀ k, 1 ≤ k → k ≤ np → OnReqTetra ts k → r.2.h k = h k) ∧
    (∀ k, (∀ j, h k ≤ h j) → r.2.h k = h k) ∧
    (r.2.nu = 0 → (∀ k, eps ≤ h k) → ∀ t ∈ ts, t.ok = true → t.reqElt = false → ∀ i < 4, ∀ j < 4, i ≠ j →
      1 ≤ t.v i ∧ t.v i ≤ np ∧ ¬ OnReqTetra ts (t.v i) → 1 ≤ t.v j ∧ t.v j ≤ np ∧ ¬ OnReqTetra ts (t.v j) →
      |r.2.h (t.v i) - r.2.h (t.v j)| ≤ hgrad * len (t.v i) (t.v j)) := by
  intro r
  obtain ⟨a, b, _, d, e⟩ := C35_edges (eps := eps) hg hlen (markTetra np ts s0) (tetEdges true ts) base h
  refine ⟨a, fun k k1 k2 hk => b k ((markTetra_iff np ts s0 k1 k2).2 hk), d, ?_⟩
  intro hnu heps t ht hok hreq i hi j hj hij ⟨vi1, vi2, vi3⟩ ⟨vj1, vj2, vj3⟩
  have zi : markTetra np ts s0 (t.v i) = 0 := by
    by_contra hc; exact vi3 ((markTetra_iff np ts s0 vi1 vi2).1 hc)
  have zj : markTetra np ts s0 (t.v j) = 0 := by
    by_contra hc; exact vj3 ((markTetra_iff np ts s0 vj1 vj2).1 hc)
  apply graded_symm hsym
  rcases mem_tetEdges (b := true) ht hok (by simp [hreq]) hi hj hij with hm | hm
  · exact .inl (e hnu heps _ hm zi zj)
  · exact .inr (e hnu heps _ hm zj zi)

/-! ### C53: gradation from required vertices -/

/-- What one step of the gradation from required vertices does. -/
theorem reqStep_spec {eps hgrad : K} {len : Nat → Nat → K} (g : GSt K) (e : Nat × Nat) :
    (reqStep eps hgrad len g e = g ∧ (((g.flag e.1 : Int) - g.flag e.2).natAbs < 2 ∨
      (g.h e.1 < eps ∨ g.h e.2 < eps) ∨ (0 ≤ hgrad * len e.1 e.2 → Graded hgrad len g.h e))) ∨
    ∃ x y hn, ((x = e.1 ∧ y = e.2) ∨ (x = e.2 ∧ y = e.1)) ∧ g.flag x + 2 ≤ g.flag y ∧
      (eps ≤ g.h y ∧ hn = g.h y + hgrad * len e.1 e.2 ∧ hn < g.h x ∨ hn = g.h y - hgrad * len e.1 e.2 ∧ g.h x < hn) ∧
      reqStep eps hgrad len g e = ⟨upd g.h x hn, upd g.flag x (g.flag y - 1), g.nu + 1⟩ := by
  unfold reqStep
  dsimp only
  by_cases h1 : ((g.flag e.1 : Int) - g.flag e.2).natAbs < 2
  · rw [if_pos h1]; exact .inl ⟨rfl, .inl h1⟩
  rw [if_neg h1]
  have key : ∀ x y : Nat, ((x = e.1 ∧ y = e.2) ∨ (x = e.2 ∧ y = e.1)) → g.flag x + 2 ≤ g.flag y →
      ((if g.h y < g.h x then
        if g.h y < eps then g
        else if g.h x ≤ g.h y + hgrad * len e.1 e.2 then g
          else ⟨upd g.h x (g.h y + hgrad * len e.1 e.2), upd g.flag x (g.flag y - 1), g.nu + 1⟩
        else if g.h x ≥ g.h y - hgrad * len e.1 e.2 then g
          else ⟨upd g.h x (g.h y - hgrad * len e.1 e.2), upd g.flag x (g.flag y - 1), g.nu + 1⟩ : GSt K) = g ∧
        ((g.h e.1 < eps ∨ g.h e.2 < eps) ∨ (0 ≤ hgrad * len e.1 e.2 → Graded hgrad len g.h e))) ∨
      ∃ hn, (eps ≤ g.h y ∧ hn = g.h y + hgrad * len e.1 e.2 ∧ hn < g.h x ∨
          hn = g.h y - hgrad * len e.1 e.2 ∧ g.h x < hn) ∧
        (if g.h y < g.h x then
        if g.h y < eps then g
        else if g.h x ≤ g.h y + hgrad * len e.1 e.2 then g
          else ⟨upd g.h x (g.h y + hgrad * len e.1 e.2), upd g.flag x (g.flag y - 1), g.nu + 1⟩
        else if g.h x ≥ g.h y - hgrad * len e.1 e.2 then g
          else ⟨upd g.h x (g.h y - hgrad * len e.1 e.2), upd g.flag x (g.flag y - 1), g.nu + 1⟩ : GSt K) =
            ⟨upd g.h x hn, upd g.flag x (g.flag y - 1), g.nu + 1⟩ := by
    intro x y hxy _
    split_ifs with h2 h3 h4 h5
    · left
      refine ⟨rfl, .inl ?_⟩
      rcases hxy with ⟨rfl, rfl⟩ | ⟨rfl, rfl⟩
      · exact .inr h3
      · exact .inl h3
    · left
      refine ⟨rfl, .inr fun hp => ?_⟩
      unfold Graded
      rw [abs_le]
      rcases hxy with ⟨rfl, rfl⟩ | ⟨rfl, rfl⟩ <;> constructor <;> linarith
    · right; exact ⟨_, .inl ⟨not_lt.1 h3, rfl, not_le.1 h4⟩, rfl⟩
    · left
      refine ⟨rfl, .inr fun hp => ?_⟩
      unfold Graded
      rw [abs_le]
      rcases hxy with ⟨rfl, rfl⟩ | ⟨rfl, rfl⟩ <;> constructor <;> linarith
    · right; exact ⟨_, .inr ⟨rfl, not_le.1 h5⟩, rfl⟩
  by_cases h2 : g.flag e.1 > g.flag e.2
  · simp only [if_pos h2]
    have hd : g.flag e.2 + 2 ≤ g.flag e.1 := by omega
    rcases key e.2 e.1 (.inr ⟨rfl, rfl⟩) hd with ⟨a, b⟩ | ⟨hn, a, b⟩
    · exact .inl ⟨a, .inr b⟩
    · exact .inr ⟨e.2, e.1, hn, .inr ⟨rfl, rfl⟩, hd, a, b⟩
  · simp only [if_neg h2]
    have hd : g.flag e.1 + 2 ≤ g.flag e.2 := by omega
    rcases key e.1 e.2 (.inl ⟨rfl, rfl⟩) hd with ⟨a, b⟩ | ⟨hn, a, b⟩
    · exact .inl ⟨a, .inr b⟩
    · exact .inr ⟨e.1, e.2, hn, .inl ⟨rfl, rfl⟩, hd, a, b⟩

/-- Kept by every step: marks stay at most the largest one and never decrease, vertices with the largest mark keep mark
and size, positive sizes stay positive. -/
structure ReqInv (top : Nat) (s0 : Nat → Nat) (h0 : Nat → K) (g : GSt K) : Prop where
  top : ∀ k, g.flag k ≤ top
  up : ∀ k, s0 k ≤ g.flag k
  same : ∀ k, g.flag k = s0 k → g.h k = h0 k
  pos : (∀ k, 0 < h0 k) → ∀ k, 0 < g.h k

theorem ReqInv.step {eps hgrad : K} {len : Nat → Nat → K} (hp : ∀ a b, 0 ≤ hgrad * len a b) {top : Nat}
    {s0 : Nat → Nat} {h0 : Nat → K} {g : GSt K} (hi : ReqInv top s0 h0 g) (e : Nat × Nat) :
    ReqInv top s0 h0 (reqStep eps hgrad len g e) := by
  rcases reqStep_spec (eps := eps) (hgrad := hgrad) (len := len) g e with ⟨h, _⟩ | ⟨x, y, hn, _, hxy, hc, heq⟩
  · rw [h]; exact hi
  · rw [heq]
    refine ⟨?_, ?_, ?_, ?_⟩
    · intro k
      dsimp only [upd]
      have := hi.top y
      split_ifs
      · omega
      · exact hi.top k
    · intro k
      dsimp only [upd]
      split_ifs with hk
      · subst hk; have := hi.up k; omega
      · exact hi.up k
    · intro k
      dsimp only [upd]
      split_ifs with hk
      · subst hk; have := hi.up k; intro hf; omega
      · exact hi.same k
    · intro hpos k
      dsimp only [upd]
      split_ifs with hk
      · have py := hi.pos hpos y
        have px := hi.pos hpos x
        have := hp e.1 e.2
        rcases hc with ⟨_, h1, _⟩ | ⟨_, h2⟩ <;> linarith
      · exact hi.pos hpos k

theorem ReqInv.fold {eps hgrad : K} {len : Nat → Nat → K} (hp : ∀ a b, 0 ≤ hgrad * len a b) {top : Nat}
    {s0 : Nat → Nat} {h0 : Nat → K} (es : List (Nat × Nat)) {g : GSt K} (hi : ReqInv top s0 h0 g) :
    ReqInv top s0 h0 (es.foldl (reqStep eps hgrad len) g) := by
  induction es generalizing g with
  | nil => exact hi
  | cons e es ih => exact ih (hi.step hp e)

theorem ReqInv.passes {eps hgrad : K} {len : Nat → Nat → K} (hp : ∀ a b, 0 ≤ hgrad * len a b) {top : Nat}
    {s0 : Nat → Nat} {h0 : Nat → K} (es : List (Nat × Nat)) (n : Nat) : ∀ {g : GSt K}, ReqInv top s0 h0 g →
    ReqInv top s0 h0 (reqPasses eps hgrad len es n g) := by
  induction n with
  | zero => intro g hi; exact ReqInv.fold hp es (g := { g with nu := 0 }) ⟨hi.top, hi.up, hi.same, hi.pos⟩
  | succ n ih =>
    intro g hi
    have h1 : ReqInv top s0 h0 (es.foldl (reqStep eps hgrad len) { g with nu := 0 }) :=
      ReqInv.fold hp es ⟨hi.top, hi.up, hi.same, hi.pos⟩
    simp only [reqPasses]
    split_ifs
    · exact ih h1
    · exact h1

theorem fold_nu {eps hgrad : K} {len : Nat → Nat → K} (es : List (Nat × Nat)) (g : GSt K) :
    g.nu ≤ (es.foldl (reqStep eps hgrad len) g).nu := by
  induction es generalizing g with
  | nil => exact le_refl _
  | cons e es ih =>
    refine le_trans ?_ (ih _)
    rcases reqStep_spec (eps := eps) (hgrad := hgrad) (len := len) g e with ⟨h, _⟩ | ⟨_, _, _, _, _, _, heq⟩
    · rw [h]
    · rw [heq]; exact Nat.le_succ _

/-- A pass without update found nothing to do. -/
theorem fold_idle {eps hgrad : K} {len : Nat → Nat → K} (hp : ∀ a b, 0 ≤ hgrad * len a b) (es : List (Nat × Nat))
    (g : GSt K) (h : (es.foldl (reqStep eps hgrad len) g).nu = g.nu) :
    es.foldl (reqStep eps hgrad len) g = g ∧ ∀ e ∈ es, ((g.flag e.1 : Int) - g.flag e.2).natAbs < 2 ∨
      (g.h e.1 < eps ∨ g.h e.2 < eps) ∨ Graded hgrad len g.h e := by
  induction es with
  | nil => exact ⟨rfl, fun e he => by simp at he⟩
  | cons e es ih =>
    rw [List.foldl_cons] at h ⊢
    rcases reqStep_spec (eps := eps) (hgrad := hgrad) (len := len) g e with ⟨h1, h2⟩ | ⟨_, _, _, _, _, _, heq⟩
    · rw [h1] at h ⊢
      obtain ⟨h3, h4⟩ := ih h
      refine ⟨h3, fun e' he' => ?_⟩
      rcases List.mem_cons.1 he' with rfl | he'
      · rcases h2 with h2 | h2 | h2
        · exact .inl h2
        · exact .inr (.inl h2)
        · exact .inr (.inr (h2 (hp _ _)))
      · exact h4 e' he'
    · exfalso
      have := fold_nu (eps := eps) (hgrad := hgrad) (len := len) es (reqStep eps hgrad len g e)
      rw [h, heq] at this
      simp at this

/-- The gradation from required vertices: vertices of required edges keep their size, sizes stay positive, a vertex
whose size changes gets a mark, and if the last pass changed nothing the sizes at the ends of every edge whose marks
differ by at least two (in particular between a vertex of a required edge and a vertex not reached) satisfy the bound. -/
theorem C53_required {eps hgrad : K} {len : Nat → Nat → K} (hg : 0 ≤ hgrad) (hlen : ∀ a b, 0 ≤ len a b)
    (es : List (Nat × Nat)) {top : Nat} (s : Nat → Nat) (hs : ∀ k, s k = 0 ∨ s k = top) (h : Nat → K) :
    let r := gradsizreq eps hgrad len es s h
    (∀ k, s k = top → r.h k = h k ∧ r.flag k = top) ∧
    ((∀ k, 0 < h k) → ∀ k, 0 < r.h k) ∧
    (∀ k, r.h k ≠ h k → r.flag k ≠ 0) ∧
    (r.nu = 0 → ∀ e ∈ es, 2 ≤ ((r.flag e.1 : Int) - r.flag e.2).natAbs → eps ≤ r.h e.1 → eps ≤ r.h e.2 →
      Graded hgrad len r.h e) := by
  intro r
  have hp : ∀ a b, 0 ≤ hgrad * len a b := fun a b => mul_nonneg hg (hlen a b)
  have h0 : ReqInv top s h ⟨h, s, 0⟩ := ⟨fun k => (by show s k ≤ top; rcases hs k with h | h <;> omega), fun _ => le_refl _,
    fun _ _ => rfl, fun h => h⟩
  have hi : ReqInv top s h r := ReqInv.passes hp es 99 h0
  refine ⟨?_, hi.pos, ?_, ?_⟩
  · intro k hk
    have h1 := hi.top k
    have h2 := hi.up k
    exact ⟨hi.same k (by omega), by omega⟩
  · intro k hk hz
    have := hi.up k
    exact hk (hi.same k (by omega))
  · have fin : ∀ n (g : GSt K), (reqPasses eps hgrad len es n g).nu = 0 → ∀ e ∈ es,
        (((reqPasses eps hgrad len es n g).flag e.1 : Int) - (reqPasses eps hgrad len es n g).flag e.2).natAbs < 2 ∨
        ((reqPasses eps hgrad len es n g).h e.1 < eps ∨ (reqPasses eps hgrad len es n g).h e.2 < eps) ∨
        Graded hgrad len (reqPasses eps hgrad len es n g).h e := by
      intro n
      induction n with
      | zero =>
        intro g hnu e he
        obtain ⟨h1, h2⟩ := fold_idle hp es { g with nu := 0 } hnu
        simp only [reqPasses]
        rw [h1]
        exact h2 e he
      | succ n ih =>
        intro g
        simp only [reqPasses]
        split_ifs with hc
        · exact ih _
        · intro hnu e he
          obtain ⟨h1, h2⟩ := fold_idle hp es { g with nu := 0 } hnu
          rw [h1]
          exact h2 e he
    intro hnu e he hd e1 e2
    rcases fin 99 _ hnu e he with h | h | h
    · exact absurd h (by show ¬ _; have : 2 ≤ ((r.flag e.1 : Int) - r.flag e.2).natAbs := hd; exact not_lt.2 this)
    · rcases h with h | h
      · exact absurd h (not_lt.2 e1)
      · exact absurd h (not_lt.2 e2)
    · exact h

end

/-! ### Examples -/

/-- Two triangles; edge 3-4 is required. -/
def tsEx : List Tria :=
  [⟨true, fun i => i + 1, fun _ => false⟩, ⟨true, fun i => if i = 0 then 2 else i + 2, fun i => i == 0⟩]

/-- Vertices on a line, at distance one. -/
def lenEx (a b : Nat) : ℚ := |(a : ℚ) - b|

def hEx (k : Nat) : ℚ := if k = 1 then 1 else 10

example : (gradsiz (1 / 10 ^ 30) (1 / 2) lenEx (markTria 4 tsEx fun _ => 7) (triEdges tsEx) 5 hEx).2.nu = 0 ∧
    [1, 2, 3, 4].map (gradsiz (1 / 10 ^ 30) (1 / 2) lenEx (markTria 4 tsEx fun _ => 7) (triEdges tsEx) 5 hEx).2.h =
      [1, 3 / 2, 10, 10] := by decide +kernel

example : OnReqTria tsEx 3 := ⟨_, List.mem_cons_of_mem _ List.mem_cons_self, rfl, 0, by decide, rfl, .inl rfl⟩

example : [1, 2, 3, 4].map (gradsizreq (1 / 10 ^ 30) (1 / 2) lenEx (triEdges tsEx) (markTria 4 tsEx fun _ => 7) hEx).h =
    [9, 19 / 2, 10, 10] := by decide +kernel

/-- In Mmgs the gradation from required vertices measures edges with their first two coordinates only (isosiz.c 428-431):
along an edge parallel to the third axis the length used is zero, whatever the edge, and the size of the required vertex
is copied. Here the bound with the true length 100 holds before and the size is changed all the same. -/
theorem C53_vertical_edge_false :
    let c : Nat → Nat → ℚ := fun k i => if i = 2 ∧ k = 2 then 100 else 0
    let len2 : Nat → Nat → ℚ := fun a b => |c b 0 - c a 0| + |c b 1 - c a 1|
    Graded (1 : ℚ) (fun a b => |c b 2 - c a 2|) (fun k => if k = 1 then 1 else 50) (1, 2) ∧
    (∀ a b, len2 a b = 0) ∧
    (gradsizreq (1 / 10 ^ 30) 1 len2 [(1, 2)] (fun k => if k = 1 then 5 else 0) fun k => if k = 1 then 1 else 50).h 2
      = 1 := by
  refine ⟨by unfold Graded; norm_num, fun a b => by simp, by decide +kernel⟩

end

end Mmg.Grad
