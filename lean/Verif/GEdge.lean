/- C90: the edges of a 3D mesh: the table is a finite map, the edges of the user reach the triangles, the edges of the output are
the marked ones. -/
import Mathlib.Data.List.Nodup
import Mathlib.Data.List.Induction
import Mathlib.Data.Fin.VecNotation
import Mathlib.Tactic.FinCases
import Mathlib.Tactic.Tauto
import Mathlib.Tactic.Common
import Verif.OrientLemmas
import Verif.GEdgeLemmas

namespace Mmg.GEdge

open Mmg.Hash (Outcome Used ckey)
open Mmg.Orient (has mgREF mgGEO mgREQ mgNOM mgNOSURF mgPARBDY mgPARBDYBDY has_or has_zero has_nosurf)

/-! ### The table -/

/-- A call on the table; `g` is the answer of the allocator. -/
inductive Op where
  | edge (a b : Nat) (ref : Int) (tag : BitVec 16) (g : Option Nat)
  | tag (a b : Nat) (ref : Int) (tag : BitVec 16)

def Op.Ok : Op → Prop
  | .edge a b _ _ g => a ≠ 0 ∧ b ≠ 0 ∧ ∀ n, g = some n → 1 ≤ n
  | .tag _ _ _ _ => True

def Op.Refused : Op → Prop
  | .edge _ _ _ _ g => g = none
  | .tag _ _ _ _ => False

/-- The call on the table. -/
def exec (h : HGeom) : Op → Outcome HGeom
  | .edge a b ref tag g => hEdge h a b ref tag g
  | .tag a b ref tag =>
    match hTag h a b ref tag with
    | .ub => .ub
    | .fail => .fail
    | .ok (h', _) => .ok h'

def run (h : HGeom) : List Op → Outcome HGeom
  | [] => .ok h
  | o :: l =>
    match exec h o with
    | .ub => .ub
    | .fail => .fail
    | .ok h' => run h' l

/-- What a call is for the user: an edge that is there is left alone by `edge`; `tag` adds tags to an edge that is there, and
replaces its reference by the one given unless this is zero. -/
def spec (m : Sym2 Nat → Option (Int × BitVec 16)) : Op → Sym2 Nat → Option (Int × BitVec 16)
  | .edge a b ref tag _ => fun x => if x = s(a, b) ∧ m x = none then some (ref, tag) else m x
  | .tag a b ref tag => fun x =>
    if x = s(a, b) then (m x).map fun v => (if ref = 0 then v.1 else ref, v.2 ||| tag) else m x

theorem addM_eq (m : Map) (a b : Nat) (ref : Int) (tag : BitVec 16) (g) :
    addM m s(a, b) (ref, tag) = spec m (.edge a b ref tag g) := by
  funext x
  unfold addM spec
  by_cases h : x = s(a, b)
  · subst h
    cases hm : m s(a, b) <;> simp [hm]
  · simp [h]

theorem tagM_eq (m : Map) (a b : Nat) (ref : Int) (tag : BitVec 16) :
    tagM m s(a, b) ref tag = spec m (.tag a b ref tag) := by
  funext x
  unfold tagM spec
  by_cases h : x = s(a, b)
  · subst h
    simp only [if_true, ne_eq, ite_not]
  · simp [h]

theorem run_spec {h : HGeom} {m : Map} (I : GInv h m) (l : List Op) (hl : ∀ o ∈ l, o.Ok) :
    (∃ h', run h l = .ok h' ∧ GInv h' (l.foldl spec m)) ∨ (run h l = .fail ∧ ∃ o ∈ l, o.Refused) := by
  induction l generalizing h m with
  | nil => exact Or.inl ⟨h, rfl, I⟩
  | cons o l ih =>
    have hl' : ∀ o ∈ l, o.Ok := fun x hx => hl x (by simp [hx])
    have ho := hl o (by simp)
    unfold run
    cases o with
    | edge a b ref tag g =>
      rcases I.hEdge_spec ho.1 ho.2.1 ref tag ho.2.2 with ⟨h', e, J⟩ | ⟨e, q⟩
      · rw [show exec h (.edge a b ref tag g) = .ok h' from e]
        rw [addM_eq (g := g)] at J
        rcases ih J hl' with q | ⟨q, o, h1, h2⟩
        · exact Or.inl q
        · exact Or.inr ⟨q, o, by simp [h1], h2⟩
      · right
        rw [show exec h (.edge a b ref tag g) = .fail from e]
        exact ⟨rfl, .edge a b ref tag g, by simp, q⟩
    | tag a b ref tag =>
      obtain ⟨h', e, J⟩ := I.hTag_spec a b ref tag
      have e' : exec h (.tag a b ref tag) = .ok h' := by
        unfold exec; simp only; rw [e]
      rw [e']
      rw [tagM_eq] at J
      rcases ih J hl' with q | ⟨q, o, h1, h2⟩
      · exact Or.inl q
      · exact Or.inr ⟨q, o, by simp [h1], h2⟩

/-- **C90.** The table of edges is a finite map on unordered pairs of vertices: after any calls, an edge that was never stored is
answered by zeros, the others by their values.  The only failure is a refusal of the allocator, and no call leaves the table. -/
theorem C90_table (hsiz hmax : Nat) (hle : hsiz ≤ hmax) (l : List Op) (hl : ∀ o ∈ l, o.Ok) :
    (∃ h, run (hNew hsiz hmax) l = .ok h ∧
      ∀ a b, hGet h a b = .ok ((l.foldl spec (fun _ => none) s(a, b)).getD (0, 0))) ∨
    (run (hNew hsiz hmax) l = .fail ∧ ∃ o ∈ l, o.Refused) := by
  rcases run_spec (hNew_inv hsiz hmax hle) l hl with ⟨h, e, J⟩ | q
  · exact Or.inl ⟨h, e, fun a b => J.hGet_spec a b⟩
  · exact Or.inr q

/-- The value of a success. -/
def value? {α : Type} : Outcome α → Option α
  | .ok x => some x
  | _ => none

/-- Three edges in a table with one bucket (two cells after it), a tag. -/
example : ∃ h, run (hNew 0 0) [.edge 1 2 5 0 none, .edge 2 1 6 4 none, .edge 2 3 7 1 (some 1), .tag 3 2 0 2] = .ok h ∧
    hGet h 2 1 = .ok (5, 0) ∧ hGet h 2 3 = .ok (7, 3) ∧ hGet h 1 3 = .ok (0, 0) := by
  rcases C90_table 0 0 (le_refl _) [.edge 1 2 5 0 none, .edge 2 1 6 4 none, .edge 2 3 7 1 (some 1), .tag 3 2 0 2] (by
    intro o ho
    simp only [List.mem_cons, List.not_mem_nil, or_false] at ho
    rcases ho with rfl | rfl | rfl | rfl <;> simp [Op.Ok]) with ⟨h, e, q⟩ | ⟨e, _⟩
  · refine ⟨h, e, ?_, ?_, ?_⟩ <;> rw [q] <;> congr 1
  · have := congrArg (fun o => (value? o).isSome) e
    exact absurd this (by decide)

/-! ### The edges of the output -/

/-- Tetrahedron `t` says that `e` is an edge of the geometry, with this reference and this tag. -/
def Says (t : Tet) (e : Sym2 Nat) (ref : Int) (tag : BitVec 16) : Prop :=
  t.ok = true ∧ ∃ edg tg, t.x = some (edg, tg) ∧ ∃ i, s(t.v (iare i).1, t.v (iare i).2) = e ∧ edg i = ref ∧ tg i = tag ∧
    (ref ≠ 0 ∨ has tag mgREQ = true ∨ has tag mgGEO = true ∨ has tag mgREF = true)

theorem mem_tetEdges {t : Tet} {d : Edge} : d ∈ tetEdges t →  Says t s(d.a, d.b) d.ref d.tag := by
  unfold tetEdges Says
  cases hx : t.x with
  | none => simp
  | some x =>
    obtain ⟨edg, tg⟩ := x
    simp only
    split
    · next ho =>
      intro hd
      rw [List.mem_map] at hd
      obtain ⟨i, hi, rfl⟩ := hd
      rw [List.mem_filter] at hi
      refine ⟨ho, edg, tg, rfl, i, rfl, rfl, rfl, ?_⟩
      simpa [or_assoc] using hi.2
    · simp

theorem tetEdges_of {t : Tet} {e : Sym2 Nat} {ref : Int} {tag : BitVec 16} (h : Says t e ref tag) :
    ∃ d ∈ tetEdges t, s(d.a, d.b) = e ∧ d.ref = ref ∧ d.tag = tag := by
  obtain ⟨ho, edg, tg, hx, i, h1, h2, h3, h4⟩ := h
  refine ⟨⟨t.v (iare i).1, t.v (iare i).2, edg i, tg i⟩, ?_, h1, h2, h3⟩
  unfold tetEdges
  rw [hx]
  simp only
  rw [if_pos ho, List.mem_map]
  refine ⟨i, ?_, rfl⟩
  rw [List.mem_filter]
  refine ⟨by fin_cases i <;> simp, ?_⟩
  rw [h2, h3]
  simpa [or_assoc] using h4

theorem GInv.cell {h : HGeom} {m : Map} (I : GInv h m) {j : Nat} (hj : (h.geom j).a ≠ 0) :
    Used (toHash h) j ∧ (h.geom j).a ≤ (h.geom j).b ∧ m s((h.geom j).a, (h.geom j).b) = some ((h.geom j).ref, (h.geom j).tag) := by
  have hu : Used (toHash h) j := by
    by_cases q : j < h.siz
    · exact Or.inl ⟨q, hj⟩
    · refine Or.inr ⟨Nat.le_of_not_lt q, ?_⟩
      by_contra c
      exact hj (I.zero j (Nat.le_of_not_lt c))
  have hs := I.inv.sound j hu
  have hle : (h.geom j).a ≤ (h.geom j).b := by
    by_contra c
    have : lift m (ckey false ((toHash h).item j)) = none := by
      unfold lift
      rw [if_neg]
      exact fun q => c q.1
    rw [this] at hs
    cases hs
  refine ⟨hu, hle, ?_⟩
  apply I.val hu
  obtain ⟨e1, e2⟩ := pair_of hle rfl
  show ((h.geom j).a, (h.geom j).b, 0) = _
  rw [← e1, ← e2]

theorem GInv.cell_of {h : HGeom} {m : Map} (I : GInv h m) {e : Sym2 Nat} {v} (hm : m e = some v) :
    ∃ j, j ≤ h.max ∧ (h.geom j).a ≠ 0 ∧ s((h.geom j).a, (h.geom j).b) = e := by
  induction e using Sym2.ind with
  | _ a b =>
    have hM : lift m (Nat.min a b, Nat.max a b, 0) = some (enc v) := by
      rw [lift_key, hm]; rfl
    obtain ⟨p, hp, hk⟩ := I.inv.complete _ _ hM
    have h1 : (h.geom p).a = Nat.min a b := (Prod.mk.inj hk).1
    have h2 : (h.geom p).b = Nat.max a b := (Prod.mk.inj (Prod.mk.inj hk).2).1
    refine ⟨p, Nat.le_of_lt (I.inv.used_lt hp), I.inv.pos p hp, ?_⟩
    rw [h1, h2, min_max]

/-- **C90.** The output has one edge for each pair of vertices that some tetrahedron marks (with a reference, or as required, ridge or
reference edge), and no others; its reference is the one that some tetrahedron gives, and it has the same tags and the mark
of a reference edge.  The number of ridges is right.  The only failure is a refusal of the allocator. -/
theorem C90_output (nt : Nat) (tets : List Tet) {g : Nat → Option Nat} (hg : ∀ k n, g k = some n → 1 ≤ n)
    (hv : ∀ t ∈ tets, t.ok = true → ∀ i, t.v i ≠ 0) :
    (bdryBuild nt tets g = .fail ∧ ∃ i, g i = none) ∨
    ∃ out nr, bdryBuild nt tets g = .ok (out, nr) ∧ (out.map fun o => s(o.a, o.b)).Nodup ∧
      (∀ o ∈ out, ∃ t ∈ tets, ∃ tag, Says t s(o.a, o.b) o.ref tag ∧ o.tag = tag ||| mgREF) ∧
      (∀ t ∈ tets, ∀ e ref tag, Says t e ref tag → ∃ o ∈ out, s(o.a, o.b) = e) ∧
      nr = out.countP fun o => has o.tag mgGEO := by
  have hl : ∀ e ∈ tets.flatMap tetEdges, e.a ≠ 0 ∧ e.b ≠ 0 := by
    intro e he
    rw [List.mem_flatMap] at he
    obtain ⟨t, ht, he⟩ := he
    unfold tetEdges at he
    cases hx : t.x with
    | none => rw [hx] at he; simp at he
    | some x =>
      rw [hx] at he
      simp only at he
      split at he
      · next ho =>
        rw [List.mem_map] at he
        obtain ⟨i, _, rfl⟩ := he
        exact ⟨hv t ht ho _, hv t ht ho _⟩
      · simp at he
  unfold bdryBuild
  rcases storeAll_spec hg (tets.flatMap tetEdges) hl 1 (hNew_inv nt (3 * nt) (by omega)) with ⟨h, e, I⟩ | ⟨e, q⟩
  · right
    rw [e]
    simp only [Option.none_or] at I ⊢
    have hc : ((List.range (h.max + 1)).map h.geom).filter (fun c => c.a != 0) =
        ((List.range (h.max + 1)).filter fun j => (h.geom j).a != 0).map h.geom := by
      rw [List.filter_map]; rfl
    refine ⟨_, _, rfl, ?_, ?_, ?_, ?_⟩
    · rw [hc, List.map_map, List.map_map]
      apply List.Nodup.map_on
      · intro x hx y hy q
        rw [List.mem_filter] at hx hy
        have ax : (h.geom x).a ≠ 0 := by simpa using hx.2
        have ay : (h.geom y).a ≠ 0 := by simpa using hy.2
        obtain ⟨ux, lx, _⟩ := I.cell ax
        obtain ⟨uy, ly, _⟩ := I.cell ay
        have q' : s((h.geom x).a, (h.geom x).b) = s((h.geom y).a, (h.geom y).b) := q
        obtain ⟨e1, e2⟩ := pair_of lx q'
        obtain ⟨e3, e4⟩ := pair_of ly rfl
        apply I.inv.uniq x y ux uy
        show ((h.geom x).a, (h.geom x).b, 0) = ((h.geom y).a, (h.geom y).b, 0)
        rw [e1, e2, ← e3, ← e4]
      · exact List.Nodup.filter _ List.nodup_range
    · intro o ho
      rw [hc, List.map_map, List.mem_map] at ho
      obtain ⟨j, hj, rfl⟩ := ho
      rw [List.mem_filter] at hj
      obtain ⟨_, _, hm⟩ := I.cell (show (h.geom j).a ≠ 0 by simpa using hj.2)
      rw [Option.map_eq_some_iff] at hm
      obtain ⟨d, hd, hd'⟩ := hm
      have hd1 := List.mem_of_find?_eq_some hd
      have hd2 := List.find?_some hd
      rw [List.mem_flatMap] at hd1
      obtain ⟨t, ht, hdt⟩ := hd1
      refine ⟨t, ht, d.tag, ?_, ?_⟩
      · have S := mem_tetEdges hdt
        rw [of_decide_eq_true hd2, (Prod.mk.inj hd').1] at S
        exact S
      · show (h.geom j).tag ||| mgREF = _
        rw [← (Prod.mk.inj hd').2]
    · intro t ht x ref tag S
      obtain ⟨d, hd, hx, _, _⟩ := tetEdges_of S
      have hs : ((tets.flatMap tetEdges).find? fun e => s(e.a, e.b) = x).isSome = true := by
        rw [List.find?_isSome]
        exact ⟨d, List.mem_flatMap.2 ⟨t, ht, hd⟩, by simpa using hx⟩
      obtain ⟨d', hd'⟩ := Option.isSome_iff_exists.1 hs
      obtain ⟨j, hj, ha, hk⟩ := I.cell_of (e := x) (v := (d'.ref, d'.tag)) (by rw [hd']; rfl)
      refine ⟨⟨(h.geom j).a, (h.geom j).b, (h.geom j).ref, (h.geom j).tag ||| mgREF⟩, ?_, hk⟩
      rw [List.mem_map]
      refine ⟨h.geom j, ?_, rfl⟩
      rw [List.mem_filter, List.mem_map]
      exact ⟨⟨j, by rw [List.mem_range]; omega, rfl⟩, by simpa using ha⟩
    · rw [List.countP_map]
      congr 1
      funext c
      simp [has_or, show has mgREF mgGEO = false from by decide]
  · left
    rw [e]
    exact ⟨rfl, q⟩

/-- The six edges of a tetrahedron are the six pairs of vertices. -/
theorem C90_six_edges : (∀ i : Fin 6, (iare i).1 ≠ (iare i).2) ∧
    ∀ a b : Fin 4, a ≠ b → ∃! i, s((iare i).1, (iare i).2) = s(a, b) := by
  unfold ExistsUnique
  decide

/-- Two tetrahedra that share the edge 1-2; both say that it is a ridge with reference 7, the second that 1-5 is required. -/
example : (value? (bdryBuild 4
    [⟨true, ![1, 2, 3, 4], some (fun i => if i = 0 then 7 else 0, fun i => if i = 0 then 2#16 else 0)⟩,
     ⟨true, ![2, 1, 3, 5], some (fun i => if i = 0 then 7 else 0, fun i => if i = 0 then 2#16 else if i = 4 then 4#16 else 0)⟩]
    (fun _ => none))).map (fun x => (x.1.map fun o => (o.a, o.b, o.ref, o.tag), x.2)) =
    some ([(1, 5, 0, 5#16), (1, 2, 7, 3#16)], 1) := by
  decide

end Mmg.GEdge
