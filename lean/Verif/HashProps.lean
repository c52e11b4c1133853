/-
Properties C01, C02, C03: the edge and face hash tables refine finite maps on
unordered pairs / triples of vertices, without out-of-bounds access.
-/
import Verif.HashLemmas
import Verif.Util
import Mathlib.Data.Sym.Sym2

namespace Mmg.Hash

/-! ### Specification: a finite map on unordered pairs -/

/-- Calls a client can make on an edge table. `g` is the answer of the allocator should the
call need to grow the table. -/
inductive EOp where
  | edge (a b k : Nat) (g : Option Nat)
  | update (a b k : Nat)
  | tag (a b t : Nat) (g : Option Nat)
  | get (a b : Nat)

/-- What each call must do to the abstract map, and what it must return. -/
def EOp.spec (m : Sym2 Nat → Option Nat) : EOp → (Sym2 Nat → Option Nat) × Nat
  | .edge a b k _ =>
    match m s(a, b) with
    | some _ => (m, 1)
    | none => (Function.update m s(a, b) (some k), 2)
  | .update a b k =>
    match m s(a, b) with
    | some _ => (Function.update m s(a, b) (some k), 1)
    | none => (m, 0)
  | .tag a b t _ =>
    match m s(a, b) with
    | some v => (Function.update m s(a, b) (some (v ||| t)), v ||| t)
    | none => (Function.update m s(a, b) (some t), t)
  | .get a b => (m, (m s(a, b)).getD 0)

/-- Values returned by a history of calls on the abstract map. -/
def specOuts (m : Sym2 Nat → Option Nat) : List EOp → List Nat
  | [] => []
  | o :: os => (o.spec m).2 :: specOuts (o.spec m).1 os

/-- The precondition of the code: vertex indices are positive; growths by at least one cell. -/
def EOp.Ok : EOp → Prop
  | .edge a b _ g => a ≠ 0 ∧ b ≠ 0 ∧ ∀ n, g = some n → 1 ≤ n
  | .update _ _ _ => True
  | .tag a b _ g => a ≠ 0 ∧ b ≠ 0 ∧ ∀ n, g = some n → 1 ≤ n
  | .get _ _ => True

/-- The allocator refuses to grow the table during this call. -/
def EOp.Refused : EOp → Prop
  | .edge _ _ _ g => g = none
  | .tag _ _ _ g => g = none
  | _ => False

/-! ### Running the modelled code -/

def EOp.exec (h : Hash) : EOp → Outcome (Hash × Nat)
  | .edge a b k g => hashEdge h a b k g
  | .update a b k => hashUpdate h a b k
  | .tag a b t g => hashEdgeTag h a b t g
  | .get a b =>
    match hashGet h a b with
    | .ub => .ub
    | .fail => .fail
    | .ok v => .ok (h, v)

/-- How a history ends. -/
inductive Stop where
  | done
  | failed (o : EOp)
  | ub

/-- Values returned by a history of calls, and how it ended (callers stop at the first failure). -/
def runE (h : Hash) : List EOp → List Nat × Stop
  | [] => ([], .done)
  | o :: os =>
    match o.exec h with
    | .ub => ([], .ub)
    | .fail => ([], .failed o)
    | .ok (h', r) => (r :: (runE h' os).1, (runE h' os).2)

/-- The abstract map of a table described by `M`. -/
def absE (M : Nat × Nat × Nat → Option Nat) (m : Sym2 Nat → Option Nat) : Prop :=
  ∀ a b, m s(a, b) = M (Nat.min a b, Nat.max a b, 0)

theorem minmax_sym {a b c d : Nat} :
    s(a, b) = s(c, d) ↔ (Nat.min a b = Nat.min c d ∧ Nat.max a b = Nat.max c d) := by
  rw [Sym2.eq_iff]
  simp only [minA, maxA]
  constructor
  · rintro (⟨rfl, rfl⟩ | ⟨rfl, rfl⟩)
    · exact ⟨rfl, rfl⟩
    · constructor <;> split_ifs <;> omega
  · rintro ⟨h1, h2⟩
    split_ifs at h1 h2 <;> omega

theorem absE_upd {M m} (h : absE M m) (a b v : Nat) :
    absE (upd M (Nat.min a b, Nat.max a b, 0) v) (Function.update m s(a, b) (some v)) := by
  intro c d
  by_cases e : s(c, d) = s(a, b)
  · have := minmax_sym.1 e
    rw [e, Function.update_self]
    simp [upd, this.1, this.2]
  · rw [Function.update_of_ne e, h c d]
    have : ¬ (Nat.min c d, Nat.max c d, 0) = (Nat.min a b, Nat.max a b, 0) := by
      intro e'
      simp only [Prod.mk.injEq, and_true] at e'
      exact e (minmax_sym.2 e')
    simp [upd, this]

/-- One call: either the abstract behaviour, or a reported failure when growth was refused. -/
theorem exec_refines {h M m} (I : Inv false h M) (hm : absE M m) (o : EOp) (ho : o.Ok) :
    (∃ h' M', o.exec h = .ok (h', (o.spec m).2) ∧ Inv false h' M' ∧ absE M' (o.spec m).1) ∨
    (o.exec h = .fail ∧ o.Refused) := by
  cases o with
  | edge a b k g =>
    obtain ⟨ha, hb, hg⟩ := ho
    rcases I.hashEdge_spec ha hb k g hg with ⟨v, h1, h2⟩ | ⟨h1, ⟨h', h2, h3⟩ | ⟨h2, h3⟩⟩
    · left; refine ⟨h, M, ?_, I, ?_⟩
      · simp [EOp.exec, EOp.spec, hm a b, h1, h2]
      · simpa [EOp.spec, hm a b, h1] using hm
    · left; refine ⟨h', _, ?_, h3, ?_⟩
      · simp [EOp.exec, EOp.spec, hm a b, h1, h2]
      · simpa [EOp.spec, hm a b, h1] using absE_upd hm a b k
    · right; exact ⟨by simp [EOp.exec, h2], h3⟩
  | update a b k =>
    left
    rcases I.hashUpdate_spec (a := a) (b := b) k with ⟨v, h', h1, h2, h3⟩ | ⟨h1, h2⟩
    · refine ⟨h', _, ?_, h3, ?_⟩
      · simp [EOp.exec, EOp.spec, hm a b, h1, h2]
      · simpa [EOp.spec, hm a b, h1] using absE_upd hm a b k
    · refine ⟨h, M, ?_, I, ?_⟩
      · simp [EOp.exec, EOp.spec, hm a b, h1, h2]
      · simpa [EOp.spec, hm a b, h1] using hm
  | tag a b t g =>
    obtain ⟨ha, hb, hg⟩ := ho
    rcases I.hashEdgeTag_spec ha hb t g hg with ⟨v, h', h1, h2, h3⟩ | ⟨h1, ⟨h', h2, h3⟩ | ⟨h2, h3⟩⟩
    · left; refine ⟨h', _, ?_, h3, ?_⟩
      · simp [EOp.exec, EOp.spec, hm a b, h1, h2]
      · simpa [EOp.spec, hm a b, h1] using absE_upd hm a b (v ||| t)
    · left; refine ⟨h', _, ?_, h3, ?_⟩
      · simp [EOp.exec, EOp.spec, hm a b, h1, h2]
      · simpa [EOp.spec, hm a b, h1] using absE_upd hm a b t
    · right; exact ⟨by simp [EOp.exec, h2], h3⟩
  | get a b =>
    left
    refine ⟨h, M, ?_, I, ?_⟩
    · simp [EOp.exec, EOp.spec, I.hashGet_spec a b, hm a b]
    · simpa [EOp.spec] using hm

theorem runE_refines {h M m} (I : Inv false h M) (hm : absE M m) (ops : List EOp)
    (hok : ∀ o ∈ ops, o.Ok) :
    ((runE h ops).1 = specOuts m ops ∧ (runE h ops).2 = .done) ∨
    (∃ pre o post, ops = pre ++ o :: post ∧ (runE h ops).1 = specOuts m pre ∧
      (runE h ops).2 = .failed o ∧ o.Refused) := by
  induction ops generalizing h M m with
  | nil => left; exact ⟨rfl, rfl⟩
  | cons o os ih =>
    rcases exec_refines I hm o (hok o (by simp)) with ⟨h', M', h1, h2, h3⟩ | ⟨h1, h2⟩
    · rcases ih h2 h3 (fun o ho => hok o (by simp [ho])) with ⟨e1, e2⟩ | ⟨pre, o', post, e0, e1, e2, e3⟩
      · left
        simp [runE, h1, specOuts, e1, e2]
      · right
        refine ⟨o :: pre, o', post, by rw [e0]; rfl, ?_, ?_, e3⟩
        · simp [runE, h1, specOuts, e1]
        · simp [runE, h1, e2]
    · right
      refine ⟨[], o, os, rfl, ?_, ?_, h2⟩
      · simp [runE, h1, specOuts]
      · simp [runE, h1]

/-! ### C01 -/

/-- **C01.** Any history of calls on a fresh edge table returns exactly what the abstract map on
unordered pairs returns, as long as the allocator grants the growths; if the history stops
earlier, it is at a call for which the allocator refused to grow, and everything returned before
is what the abstract map returns. -/
theorem C01_edge_table_is_map (hsiz hmax : Nat) (hle : hsiz ≤ hmax) (ops : List EOp)
    (hok : ∀ o ∈ ops, o.Ok) :
    ((runE (hashNew hsiz hmax) ops).1 = specOuts (fun _ => none) ops ∧
      (runE (hashNew hsiz hmax) ops).2 = .done) ∨
    (∃ pre o post, ops = pre ++ o :: post ∧
      (runE (hashNew hsiz hmax) ops).1 = specOuts (fun _ => none) pre ∧
      (runE (hashNew hsiz hmax) ops).2 = .failed o ∧ o.Refused) :=
  runE_refines (inv_hashNew false hsiz hmax hle) (fun _ _ => rfl) ops hok

/-- **C01, granted growth.** If the allocator never refuses, every history runs to its end with
the abstract results. -/
theorem C01_edge_table_total (hsiz hmax : Nat) (hle : hsiz ≤ hmax) (ops : List EOp)
    (hok : ∀ o ∈ ops, o.Ok) (hgr : ∀ o ∈ ops, ¬ o.Refused) :
    runE (hashNew hsiz hmax) ops = (specOuts (fun _ => none) ops, .done) := by
  rcases C01_edge_table_is_map hsiz hmax hle ops hok with ⟨h1, h2⟩ | ⟨pre, o, post, h0, _, _, h3⟩
  · exact Prod.ext h1 h2
  · exact absurd h3 (hgr o (by rw [h0]; simp))

/-- A history with a collision (edges {1,2} and {2,3} modulo a table of one bucket), growth,
update and tags meets the hypotheses and runs to its end. -/
example :
    let ops : List EOp := [.edge 1 2 10 (some 1), .edge 3 2 20 (some 1), .edge 7 4 30 (some 2),
      .edge 2 1 99 (some 1), .update 2 3 21, .tag 4 7 1 none, .get 1 2, .get 3 2, .get 7 4, .get 5 5]
    (runE (hashNew 0 0) ops).1 = [2, 2, 2, 1, 1, 31, 10, 21, 31, 0] := by decide

example : ∀ o ∈ ([.edge 1 2 10 (some 1), .edge 3 2 20 (some 1), .update 2 3 21] : List EOp), o.Ok := by
  intro o ho
  simp only [List.mem_cons, List.not_mem_nil, or_false] at ho
  rcases ho with rfl | rfl | rfl <;> simp [EOp.Ok]

/-! ### C02 -/

/-- **C02.** No history of calls on a fresh edge table with `hsiz ≤ hmax` reaches an access
outside the allocated cells or an endless chain walk. -/
theorem C02_edge_table_memory_safe (hsiz hmax : Nat) (hle : hsiz ≤ hmax) (ops : List EOp)
    (hok : ∀ o ∈ ops, o.Ok) : (runE (hashNew hsiz hmax) ops).2 ≠ .ub := by
  rcases C01_edge_table_is_map hsiz hmax hle ops hok with ⟨_, h2⟩ | ⟨_, _, _, _, _, h2, _⟩ <;>
    rw [h2] <;> simp

/-- The hypothesis `hsiz ≤ hmax` of C02 cannot be dropped: with `hmax + 2 < hsiz` the first
insertion in the last bucket is out of bounds. -/
theorem C02_hypothesis_needed : ∃ hsiz hmax a b,
    hmax < hsiz ∧ a ≠ 0 ∧ b ≠ 0 ∧ (runE (hashNew hsiz hmax) [.edge a b 1 (some 1)]).2 = .ub :=
  ⟨29, 0, 1, 2, by decide, by decide, by decide, rfl⟩

/-! ### C03: faces -/

/-- Calls on a face table. -/
inductive FOp where
  | face (a b c k : Nat) (g : Option Nat)
  | get (a b c : Nat)

/-- Specification: a map on multisets of three vertices. -/
def FOp.spec (m : Multiset Nat → Option Nat) : FOp → (Multiset Nat → Option Nat) × Int
  | .face a b c k _ =>
    match m {a, b, c} with
    | some v => (m, v)
    | none => (Function.update m {a, b, c} (some k), -1)
  | .get a b c => (m, ((m {a, b, c}).getD 0 : Nat))

def fspecOuts (m : Multiset Nat → Option Nat) : List FOp → List Int
  | [] => []
  | o :: os => (o.spec m).2 :: fspecOuts (o.spec m).1 os

def FOp.Ok : FOp → Prop
  | .face a b c _ g => a ≠ 0 ∧ b ≠ 0 ∧ c ≠ 0 ∧ ∀ n, g = some n → 1 ≤ n
  | .get _ _ _ => True

def FOp.Refused : FOp → Prop
  | .face _ _ _ _ g => g = none
  | _ => False

def FOp.exec (h : Hash) : FOp → Outcome (Hash × Int)
  | .face a b c k g => hashFace h a b c k g
  | .get a b c =>
    match hashGetFace h a b c with
    | .ub => .ub
    | .fail => .fail
    | .ok v => .ok (h, (v : Int))

inductive FStop where
  | done
  | failed (o : FOp)
  | ub

def runF (h : Hash) : List FOp → List Int × FStop
  | [] => ([], .done)
  | o :: os =>
    match o.exec h with
    | .ub => ([], .ub)
    | .fail => ([], .failed o)
    | .ok (h', r) => (r :: (runF h' os).1, (runF h' os).2)

/-- Minimum, maximum and sum determine the multiset of three vertices. -/
theorem faceKey_eq_iff {a b c d e f : Nat} :
    faceKey a b c = faceKey d e f ↔ ({a, b, c} : Multiset Nat) = {d, e, f} := by
  simp only [faceKey, Prod.mk.injEq]
  exact min_max_sum3

def absF (M : Nat × Nat × Nat → Option Nat) (m : Multiset Nat → Option Nat) : Prop :=
  ∀ a b c, m {a, b, c} = M (faceKey a b c)

theorem absF_upd {M m} (h : absF M m) (a b c v : Nat) :
    absF (upd M (faceKey a b c) v) (Function.update m {a, b, c} (some v)) := by
  intro d e f
  by_cases hq : ({d, e, f} : Multiset Nat) = {a, b, c}
  · rw [hq, Function.update_self]
    simp [upd, faceKey_eq_iff.2 hq]
  · rw [Function.update_of_ne hq, h d e f]
    have : ¬ faceKey d e f = faceKey a b c := fun e' => hq (faceKey_eq_iff.1 e')
    simp [upd, this]

theorem fexec_refines {h M m} (I : Inv true h M) (hm : absF M m) (o : FOp) (ho : o.Ok) :
    (∃ h' M', o.exec h = .ok (h', (o.spec m).2) ∧ Inv true h' M' ∧ absF M' (o.spec m).1) ∨
    (o.exec h = .fail ∧ o.Refused) := by
  cases o with
  | face a b c k g =>
    obtain ⟨ha, hb, hc, hg⟩ := ho
    rcases I.hashFace_spec ha hb hc k g hg with ⟨v, h1, h2⟩ | ⟨h1, ⟨h', h2, h3⟩ | ⟨h2, h3⟩⟩
    · left; refine ⟨h, M, ?_, I, ?_⟩
      · simp only [FOp.exec, FOp.spec, hm a b c, h1, h2]
      · simpa only [FOp.spec, hm a b c, h1] using hm
    · left; refine ⟨h', _, ?_, h3, ?_⟩
      · simp only [FOp.exec, FOp.spec, hm a b c, h1, h2]
      · simpa only [FOp.spec, hm a b c, h1] using absF_upd hm a b c k
    · right; exact ⟨by simp only [FOp.exec, h2], h3⟩
  | get a b c =>
    left
    refine ⟨h, M, ?_, I, ?_⟩
    · simp only [FOp.exec, FOp.spec, I.hashGetFace_spec a b c, hm a b c]
    · simpa only [FOp.spec] using hm

theorem runF_refines {h M m} (I : Inv true h M) (hm : absF M m) (ops : List FOp)
    (hok : ∀ o ∈ ops, o.Ok) :
    ((runF h ops).1 = fspecOuts m ops ∧ (runF h ops).2 = .done) ∨
    (∃ pre o post, ops = pre ++ o :: post ∧ (runF h ops).1 = fspecOuts m pre ∧
      (runF h ops).2 = .failed o ∧ o.Refused) := by
  induction ops generalizing h M m with
  | nil => left; exact ⟨rfl, rfl⟩
  | cons o os ih =>
    rcases fexec_refines I hm o (hok o (by simp)) with ⟨h', M', h1, h2, h3⟩ | ⟨h1, h2⟩
    · rcases ih h2 h3 (fun o ho => hok o (by simp [ho])) with ⟨e1, e2⟩ | ⟨pre, o', post, e0, e1, e2, e3⟩
      · left
        simp [runF, h1, fspecOuts, e1, e2]
      · right
        refine ⟨o :: pre, o', post, by rw [e0]; rfl, ?_, ?_, e3⟩
        · simp [runF, h1, fspecOuts, e1]
        · simp [runF, h1, e2]
    · right
      refine ⟨[], o, os, rfl, ?_, ?_, h2⟩
      · simp [runF, h1, fspecOuts]
      · simp [runF, h1]

/-- **C03.** Any history of face insertions and lookups on a fresh face table returns exactly
what a map on multisets of three vertices returns (first index wins; faces with different
vertices are never identified), up to the first refused growth. -/
theorem C03_face_table_is_map (hsiz hmax : Nat) (hle : hsiz ≤ hmax) (ops : List FOp)
    (hok : ∀ o ∈ ops, o.Ok) :
    ((runF (hashNew hsiz hmax) ops).1 = fspecOuts (fun _ => none) ops ∧
      (runF (hashNew hsiz hmax) ops).2 = .done) ∨
    (∃ pre o post, ops = pre ++ o :: post ∧
      (runF (hashNew hsiz hmax) ops).1 = fspecOuts (fun _ => none) pre ∧
      (runF (hashNew hsiz hmax) ops).2 = .failed o ∧ o.Refused) :=
  runF_refines (inv_hashNew true hsiz hmax hle) (fun _ _ _ => rfl) ops hok

/-- Faces {1,4,7} and {1,7,2} collide in a one-bucket table; the insertions find what they must. -/
example :
    (runF (hashNew 0 0) [.face 1 4 7 5 (some 1), .face 7 2 1 6 (some 1), .face 4 1 7 8 (some 1),
      .get 2 7 1, .get 7 4 1, .get 1 3 8]).1 = [-1, -1, 5, 6, 5, 0] := by decide

example : FOp.Ok (.face 1 4 7 5 (some 1)) := by simp [FOp.Ok]

end Mmg.Hash
