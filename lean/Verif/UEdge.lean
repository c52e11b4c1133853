/-
  C84: the edges given by the user reach the triangles, and come back.
-/
import Verif.UEdgeModel
import Verif.HashProps
import Verif.Edge2Props
import Verif.Pack2Props

namespace Mmg.UEdge
open Mmg.Hash (Hash Outcome hashNew hashEdge hashGet)
open Mmg.Orient (mgREF mgGEO mgREQ mgBDY mgNOSURF mgPARBDY has set2)

/-! ### Vocabulary -/

/-- `e` is the edge between `a` and `b`, in any direction. -/
def Joins (a b : Nat) (e : Edge) : Prop := (e.a = a ∧ e.b = b) ∨ (e.a = b ∧ e.b = a)

instance (a b e) : Decidable (Joins a b e) := by unfold Joins; infer_instance

/-- The edge the user has given between `a` and `b`: the first one if there are several. -/
def given (es : List Edge) (a b : Nat) : Option Edge := es.find? fun e => decide (Joins a b e)

/-- Existing elements. -/
def ExT (E : Env) (k : Nat) : Prop := 1 ≤ k ∧ k ≤ E.nt ∧ E.v k 0 ≠ 0
def ExQ (E : Env) (k : Nat) : Prop := 1 ≤ k ∧ k ≤ E.nq ∧ E.w k 0 ≠ 0

/-- Tags the sides of the triangles have on entry: at the first call, required sides of triangles that are not required
altogether are forgotten. -/
def entry (E : Env) (s : St) (k : Nat) (i : Fin 3) : BitVec 16 :=
  if s.called = false ∧ 1 ≤ k ∧ k ≤ E.nt ∧ E.v k 0 ≠ 0 ∧ ¬ (∀ j, has (s.tag k j) mgREQ = true) then s.tag k i &&& ~~~mgREQ
  else s.tag k i

/-! ### The table -/

theorem given_comm (es : List Edge) (a b : Nat) : given es a b = given es b a := by
  unfold given
  congr 1
  funext e
  rw [decide_eq_decide]
  exact or_comm

theorem joins_key {a b : Nat} {e : Edge} : Joins a b e ↔
    ((Nat.min e.a e.b, Nat.max e.a e.b, 0) : Nat × Nat × Nat) = (Nat.min a b, Nat.max a b, 0) := by
  have h : Joins a b e ↔ s(e.a, e.b) = s(a, b) := by rw [Sym2.eq_iff]; rfl
  rw [h, Hash.minmax_sym, Prod.mk.injEq, Prod.mk.injEq]
  exact ⟨fun x => ⟨x.1, x.2, rfl⟩, fun x => ⟨x.1, x.2.1⟩⟩

theorem find_idx (p : Edge → Bool) (es : List Edge) :
    (es.findIdx? p = none → es.find? p = none) ∧ (∀ i, es.findIdx? p = some i → es[i]? = es.find? p ∧ (es.find? p).isSome) := by
  induction es with
  | nil => exact ⟨fun _ => rfl, fun i h => by simp at h⟩
  | cons e r ih =>
    rw [List.findIdx?_cons, List.find?_cons]
    cases hp : p e
    · simp only [Bool.false_eq_true, if_false]
      constructor
      · intro h; exact ih.1 (by simpa using h)
      · intro i h
        rw [Option.map_eq_some_iff] at h
        obtain ⟨j, hj, rfl⟩ := h
        rw [List.getElem?_cons_succ]
        exact ih.2 j hj
    · simp

theorem hashAll_spec {g : Nat → Option Nat} (hg : ∀ k n, g k = some n → 1 ≤ n) (es : List Edge) :
    ∀ (k : Nat) {h : Hash} {M}, (∀ e ∈ es, e.a ≠ 0 ∧ e.b ≠ 0) → Hash.Inv false h M →
    (hashAll g es k h = .fail ∧ ∃ j, g j = none) ∨
    ∃ h' M', hashAll g es k h = .ok h' ∧ Hash.Inv false h' M' ∧
      ∀ a b, M' (Nat.min a b, Nat.max a b, 0) =
        (M (Nat.min a b, Nat.max a b, 0)).or ((es.findIdx? fun e => decide (Joins a b e)).map (· + k)) := by
  induction es with
  | nil => intro k h M _ I; right; exact ⟨h, M, rfl, I, fun a b => by simp⟩
  | cons e r ih =>
    intro k h M hp I
    have hpr : ∀ e ∈ r, e.a ≠ 0 ∧ e.b ≠ 0 := fun e' h' => hp e' (List.mem_cons_of_mem _ h')
    obtain ⟨ha, hb⟩ := hp e List.mem_cons_self
    unfold hashAll
    rcases I.hashEdge_spec ha hb k (g k) (hg k) with ⟨v, h1, h2⟩ | ⟨h1, ⟨h', h2, I'⟩ | ⟨h2, h3⟩⟩
    · rw [h2]
      simp only
      rcases ih (k + 1) hpr I with hf | ⟨h', M', e1, I', e2⟩
      · exact Or.inl hf
      · refine Or.inr ⟨h', M', e1, I', fun a b => ?_⟩
        rw [e2 a b, List.findIdx?_cons]
        by_cases hj : Joins a b e
        · rw [joins_key] at hj
          rw [← hj, h1]
          rfl
        · simp only [hj, decide_false, Bool.false_eq_true, if_false, Option.map_map]
          congr 2
          funext x; simp only [Function.comp]; omega
    · rw [h2]
      simp only
      rcases ih (k + 1) hpr I' with hf | ⟨h'', M', e1, I'', e2⟩
      · exact Or.inl hf
      · refine Or.inr ⟨h'', M', e1, I'', fun a b => ?_⟩
        rw [e2 a b, List.findIdx?_cons]
        by_cases hj : Joins a b e
        · have hj' := joins_key.1 hj
          rw [← hj', h1]
          simp [hj, Hash.upd]
        · have hj' : ¬ (Nat.min a b, Nat.max a b, 0) = ((Nat.min e.a e.b, Nat.max e.a e.b, 0) : Nat × Nat × Nat) :=
            fun x => hj (joins_key.2 x.symm)
          simp only [hj, decide_false, Bool.false_eq_true, if_false, Option.map_map]
          rw [show Hash.upd M (Nat.min e.a e.b, Nat.max e.a e.b, 0) k (Nat.min a b, Nat.max a b, 0)
            = M (Nat.min a b, Nat.max a b, 0) from if_neg hj']
          congr 2
          funext x; simp only [Function.comp]; omega
    · rw [h2]; exact Or.inl ⟨rfl, k, h3⟩

/-- What a look-up finds. -/
theorem get_given {h : Hash} {M} (I : Hash.Inv false h M) {es : List Edge}
    (hM : ∀ a b, M (Nat.min a b, Nat.max a b, 0) = (es.findIdx? fun e => decide (Joins a b e)).map (· + 1)) (a b : Nat) :
    (given es a b = none ∧ hashGet h a b = .ok 0) ∨
    ∃ ia e, given es a b = some e ∧ hashGet h a b = .ok ia ∧ ia ≠ 0 ∧ es[ia - 1]? = some e := by
  rw [I.hashGet_spec, hM]
  have hf := find_idx (fun e => decide (Joins a b e)) es
  cases hi : es.findIdx? fun e => decide (Joins a b e) with
  | none => left; exact ⟨hf.1 hi, rfl⟩
  | some i =>
    right
    obtain ⟨h1, h2⟩ := hf.2 i hi
    obtain ⟨e, he⟩ := Option.isSome_iff_exists.1 h2
    exact ⟨i + 1, e, he, rfl, by omega, by rw [Nat.add_sub_cancel, h1]; exact he⟩

/-! ### The loops -/

def triP (E : Env) (es : List Edge) (s : St) (x : Nat × Fin 3) : St :=
  match given es (E.v x.1 x.2) (E.v x.1 (x.2 + 1)) with
  | none => s
  | some e => { s with
      edg := set2 s.edg x.1 (x.2 + 1 + 1) e.ref
      tag := set2 s.tag x.1 (x.2 + 1 + 1) (s.tag x.1 (x.2 + 1 + 1) ||| e.tag) }

def quadP (E : Env) (es : List Edge) (s : St) (x : Nat × Fin 4) : St :=
  match given es (E.w x.1 (idirq x.2).1) (E.w x.1 (idirq x.2).2) with
  | none => s
  | some e => { s with
      qedg := fun k i => if k = x.1 ∧ i = x.2 then e.ref else s.qedg k i
      qtag := fun k i => if k = x.1 ∧ i = x.2 then s.qtag k i ||| e.tag else s.qtag k i }

theorem loop_pure {α : Type} {f : St → α → Outcome St} {p : St → α → St} (h : ∀ s x, f s x = .ok (p s x)) (l : List α) :
    ∀ s, loop f l s = .ok (l.foldl p s) := by
  induction l with
  | nil => intro s; rfl
  | cons x r ih => intro s; unfold loop; rw [h s x]; exact ih _

theorem tri_pure {h : Hash} {M} (I : Hash.Inv false h M) {es : List Edge}
    (hM : ∀ a b, M (Nat.min a b, Nat.max a b, 0) = (es.findIdx? fun e => decide (Joins a b e)).map (· + 1)) (E : Env)
    (s : St) (x) : triSide E h es s x = .ok (triP E es s x) := by
  unfold triSide triP
  rcases get_given I hM (E.v x.1 x.2) (E.v x.1 (x.2 + 1)) with ⟨h1, h2⟩ | ⟨ia, e, h1, h2, h3, h4⟩
  · rw [h2, h1]; rfl
  · rw [h2, h1]; simp only; rw [if_neg h3, h4]

theorem quad_pure {h : Hash} {M} (I : Hash.Inv false h M) {es : List Edge}
    (hM : ∀ a b, M (Nat.min a b, Nat.max a b, 0) = (es.findIdx? fun e => decide (Joins a b e)).map (· + 1)) (E : Env)
    (s : St) (x) : quadSide E h es s x = .ok (quadP E es s x) := by
  unfold quadSide quadP
  rcases get_given I hM (E.w x.1 (idirq x.2).1) (E.w x.1 (idirq x.2).2) with ⟨h1, h2⟩ | ⟨ia, e, h1, h2, h3, h4⟩
  · rw [h2, h1]; rfl
  · rw [h2, h1]; simp only; rw [if_neg h3, h4]

theorem fin_turn (i j : Fin 3) : j = i + 1 + 1 ↔ i = j + 1 := by revert i j; decide

theorem tri_fold (E : Env) (es : List Edge) (l : List (Nat × Fin 3)) : ∀ s : St, l.Nodup →
    (l.foldl (triP E es) s).qtag = s.qtag ∧ (l.foldl (triP E es) s).qedg = s.qedg ∧
    (l.foldl (triP E es) s).called = s.called ∧
    ∀ k j, ((l.foldl (triP E es) s).tag k j, (l.foldl (triP E es) s).edg k j) =
      match (if (k, j + 1) ∈ l then given es (E.v k (j + 1)) (E.v k (j + 1 + 1)) else none) with
      | none => (s.tag k j, s.edg k j)
      | some e => (s.tag k j ||| e.tag, e.ref) := by
  induction l with
  | nil => intro s _; exact ⟨rfl, rfl, rfl, fun k j => rfl⟩
  | cons x r ih =>
    intro s hn
    rw [List.nodup_cons] at hn
    obtain ⟨a1, a2, a3, a4⟩ := ih (triP E es s x) hn.2
    have b : ∀ k j, ((triP E es s x).tag k j, (triP E es s x).edg k j) =
      match (if (k, j + 1) = x then given es (E.v k (j + 1)) (E.v k (j + 1 + 1)) else none) with
      | none => (s.tag k j, s.edg k j)
      | some e => (s.tag k j ||| e.tag, e.ref) := by
      intro k j
      unfold triP
      by_cases hx : (k, j + 1) = x
      · subst hx
        simp only [if_true]
        cases given es (E.v k (j + 1)) (E.v k (j + 1 + 1)) with
        | none => rfl
        | some e =>
          have : j + 1 + 1 + 1 = j := ((fin_turn (j + 1) j).2 rfl).symm
          simp only [this, set2, and_self, if_true]
      · rw [if_neg hx]
        cases given es (E.v x.1 x.2) (E.v x.1 (x.2 + 1)) with
        | none => rfl
        | some e =>
          have : ¬ (k = x.1 ∧ j = x.2 + 1 + 1) := by
            rintro ⟨h1, h2⟩
            exact hx (Prod.ext h1 ((fin_turn _ _).1 h2).symm)
          simp only [set2, this, if_false]
    have c : (triP E es s x).qtag = s.qtag ∧ (triP E es s x).qedg = s.qedg ∧ (triP E es s x).called = s.called := by
      unfold triP; split <;> exact ⟨rfl, rfl, rfl⟩
    rw [List.foldl_cons]
    refine ⟨a1.trans c.1, a2.trans c.2.1, a3.trans c.2.2, fun k j => ?_⟩
    rw [a4 k j]
    have bk := b k j
    by_cases hx : (k, j + 1) = x
    · have hnr : (k, j + 1) ∉ r := fun h => hn.1 (hx ▸ h)
      rw [if_neg hnr, if_pos (List.mem_cons.2 (Or.inl hx))]
      rw [if_pos hx] at bk
      exact bk
    · rw [if_neg hx] at bk
      simp only [List.mem_cons, hx, false_or]
      have b1 := congrArg Prod.fst bk
      have b2 := congrArg Prod.snd bk
      simp only at b1 b2
      rw [b1, b2]

theorem quad_fold (E : Env) (es : List Edge) (l : List (Nat × Fin 4)) : ∀ s : St, l.Nodup →
    (l.foldl (quadP E es) s).tag = s.tag ∧ (l.foldl (quadP E es) s).edg = s.edg ∧
    (l.foldl (quadP E es) s).called = s.called ∧
    ∀ k j, ((l.foldl (quadP E es) s).qtag k j, (l.foldl (quadP E es) s).qedg k j) =
      match (if (k, j) ∈ l then given es (E.w k (idirq j).1) (E.w k (idirq j).2) else none) with
      | none => (s.qtag k j, s.qedg k j)
      | some e => (s.qtag k j ||| e.tag, e.ref) := by
  induction l with
  | nil => intro s _; exact ⟨rfl, rfl, rfl, fun k j => rfl⟩
  | cons x r ih =>
    intro s hn
    rw [List.nodup_cons] at hn
    obtain ⟨a1, a2, a3, a4⟩ := ih (quadP E es s x) hn.2
    have b : ∀ k j, ((quadP E es s x).qtag k j, (quadP E es s x).qedg k j) =
      match (if (k, j) = x then given es (E.w k (idirq j).1) (E.w k (idirq j).2) else none) with
      | none => (s.qtag k j, s.qedg k j)
      | some e => (s.qtag k j ||| e.tag, e.ref) := by
      intro k j
      unfold quadP
      by_cases hx : (k, j) = x
      · subst hx
        simp only [if_true]
        cases given es (E.w k (idirq j).1) (E.w k (idirq j).2) with
        | none => rfl
        | some e => simp only [and_self, if_true]
      · rw [if_neg hx]
        cases given es (E.w x.1 (idirq x.2).1) (E.w x.1 (idirq x.2).2) with
        | none => rfl
        | some e =>
          have : ¬ (k = x.1 ∧ j = x.2) := fun h => hx (Prod.ext h.1 h.2)
          simp only [this, if_false]
    have c : (quadP E es s x).tag = s.tag ∧ (quadP E es s x).edg = s.edg ∧ (quadP E es s x).called = s.called := by
      unfold quadP; split <;> exact ⟨rfl, rfl, rfl⟩
    rw [List.foldl_cons]
    refine ⟨a1.trans c.1, a2.trans c.2.1, a3.trans c.2.2, fun k j => ?_⟩
    rw [a4 k j]
    have bk := b k j
    by_cases hx : (k, j) = x
    · have hnr : (k, j) ∉ r := fun h => hn.1 (hx ▸ h)
      rw [if_neg hnr, if_pos (List.mem_cons.2 (Or.inl hx))]
      rw [if_pos hx] at bk
      exact bk
    · rw [if_neg hx] at bk
      simp only [List.mem_cons, hx, false_or]
      have b1 := congrArg Prod.fst bk
      have b2 := congrArg Prod.snd bk
      simp only at b1 b2
      rw [b1, b2]

theorem mem_tri (E : Env) (k : Nat) (i : Fin 3) : (k, i) ∈ triSides E ↔ ExT E k := by
  unfold triSides ExT
  rw [List.mem_flatMap]
  constructor
  · rintro ⟨k', h1, h2⟩
    rw [List.mem_range'_1] at h1
    split at h2
    · exact absurd h2 List.not_mem_nil
    · rename_i h3
      have : k = k' := by
        simp only [List.mem_cons, Prod.mk.injEq, List.not_mem_nil, or_false] at h2
        rcases h2 with h | h | h <;> exact h.1
      subst this
      exact ⟨h1.1, by omega, h3⟩
  · rintro ⟨h1, h2, h3⟩
    refine ⟨k, by rw [List.mem_range'_1]; omega, ?_⟩
    rw [if_neg h3]
    revert i
    intro i
    have : i = 0 ∨ i = 1 ∨ i = 2 := by revert i; decide
    rcases this with rfl | rfl | rfl <;> simp

theorem mem_quad (E : Env) (k : Nat) (i : Fin 4) : (k, i) ∈ quadSides E ↔ ExQ E k := by
  unfold quadSides ExQ
  rw [List.mem_flatMap]
  constructor
  · rintro ⟨k', h1, h2⟩
    rw [List.mem_range'_1] at h1
    split at h2
    · exact absurd h2 List.not_mem_nil
    · rename_i h3
      have : k = k' := by
        simp only [List.mem_cons, Prod.mk.injEq, List.not_mem_nil, or_false] at h2
        rcases h2 with h | h | h | h <;> exact h.1
      subst this
      exact ⟨h1.1, by omega, h3⟩
  · rintro ⟨h1, h2, h3⟩
    refine ⟨k, by rw [List.mem_range'_1]; omega, ?_⟩
    rw [if_neg h3]
    have : i = 0 ∨ i = 1 ∨ i = 2 ∨ i = 3 := by revert i; decide
    rcases this with rfl | rfl | rfl | rfl <;> simp

theorem flat_nodup {α : Type} (n : Nat) (c : Nat → Prop) [DecidablePred c] (l : List α) (hl : l.Nodup) :
    ((List.range' 1 n).flatMap fun k => if c k then [] else l.map fun i => (k, i)).Nodup := by
  rw [List.nodup_flatMap]
  constructor
  · intro k _
    split
    · exact List.nodup_nil
    · exact hl.map (fun a b h => (Prod.mk.inj h).2)
  · refine List.Pairwise.imp_of_mem ?_ (List.nodup_range' (s := 1) (n := n))
    intro a b _ _ hab
    simp only [Function.onFun]
    split
    · exact List.disjoint_nil_left _
    · split
      · exact List.disjoint_nil_right _
      · intro x h1 h2
        simp only [List.mem_map] at h1 h2
        obtain ⟨i, _, rfl⟩ := h1
        obtain ⟨j, _, h⟩ := h2
        exact hab (Prod.mk.inj h).1.symm

theorem tri_nodup (E : Env) : (triSides E).Nodup := flat_nodup E.nt (fun k => E.v k 0 = 0) ([0, 1, 2] : List (Fin 3)) (by decide)
theorem quad_nodup (E : Env) : (quadSides E).Nodup :=
  flat_nodup E.nq (fun k => E.w k 0 = 0) ([0, 1, 2, 3] : List (Fin 4)) (by decide)

/-! ### The first call -/

theorem clean_fold (E : Env) (l : List Nat) : ∀ tag : Nat → Fin 3 → BitVec 16, l.Nodup → ∀ k,
    (l.foldl (fun t k => if E.v k 0 = 0 then t else fun j => if j = k then clean (t k) else t j) tag) k =
      if k ∈ l ∧ E.v k 0 ≠ 0 then clean (tag k) else tag k := by
  induction l with
  | nil => intro tag _ k; simp
  | cons x r ih =>
    intro tag hn k
    rw [List.nodup_cons] at hn
    rw [List.foldl_cons, ih _ hn.2]
    by_cases hx : k = x
    · subst hx
      have : ¬ (k ∈ r ∧ E.v k 0 ≠ 0) := fun h => hn.1 h.1
      rw [if_neg this]
      by_cases h0 : E.v k 0 = 0
      · simp [h0]
      · simp [h0]
    · have e : (if E.v x 0 = 0 then tag else fun j => if j = x then clean (tag x) else tag j) k = tag k := by
        split
        · rfl
        · simp [hx]
      rw [e]
      simp only [List.mem_cons, hx, false_or]

theorem entry_eq (E : Env) (s : St) : (if s.called then s else { s with tag := cleanAll E s.tag, called := true }).tag
    = entry E s := by
  funext k i
  unfold entry
  cases hc : s.called
  · simp only [Bool.false_eq_true, if_false]
    unfold cleanAll
    rw [clean_fold E _ _ List.nodup_range']
    simp only [List.mem_range'_1, true_and]
    have hall : (has (s.tag k 0) mgREQ && has (s.tag k 1) mgREQ && has (s.tag k 2) mgREQ) = true ↔
        ∀ j, has (s.tag k j) mgREQ = true := by
      rw [Bool.and_eq_true, Bool.and_eq_true]
      constructor
      · rintro ⟨⟨a, b⟩, c⟩ j
        have : j = 0 ∨ j = 1 ∨ j = 2 := by revert j; decide
        rcases this with rfl | rfl | rfl <;> assumption
      · intro h; exact ⟨⟨h 0, h 1⟩, h 2⟩
    by_cases h1 : (1 ≤ k ∧ k < 1 + E.nt) ∧ E.v k 0 ≠ 0
    · rw [if_pos h1]
      unfold clean
      by_cases h2 : ∀ j, has (s.tag k j) mgREQ = true
      · rw [if_pos (hall.2 h2), if_neg (fun h => h.2.2.2 h2)]
      · rw [if_neg (fun h => h2 (hall.1 h)), if_pos ⟨h1.1.1, by omega, h1.2, h2⟩]
    · rw [if_neg h1, if_neg (fun h => h1 ⟨⟨h.1, by omega⟩, h.2.2.1⟩)]
  · simp

/-! ### C84 -/

/-- The edges the user gives reach the sides of the elements: every side that joins the end points of an edge gets its
reference and its tags (of the first of these edges if there are several), the other sides keep what they have; the list
of edges is emptied.  The only failure is a refusal of the allocator. -/
theorem C84_assign {E : Env} {s : St} {g : Nat → Option Nat} (hg : ∀ k n, g k = some n → 1 ≤ n)
    (hp : ∀ e ∈ s.edges, e.a ≠ 0 ∧ e.b ≠ 0) :
    (assignEdge E g s = .fail ∧ ∃ j, g j = none) ∨
    ∃ s', assignEdge E g s = .ok s' ∧ s'.edges = [] ∧ s'.called = true ∧
      (∀ k i e, ExT E k → given s.edges (E.v k (i + 1)) (E.v k (i + 2)) = some e →
        s'.edg k i = e.ref ∧ s'.tag k i = entry E s k i ||| e.tag) ∧
      (∀ k i, (¬ ExT E k ∨ given s.edges (E.v k (i + 1)) (E.v k (i + 2)) = none) →
        s'.edg k i = s.edg k i ∧ s'.tag k i = entry E s k i) ∧
      (∀ k i e, ExQ E k → given s.edges (E.w k (idirq i).1) (E.w k (idirq i).2) = some e →
        s'.qedg k i = e.ref ∧ s'.qtag k i = s.qtag k i ||| e.tag) ∧
      (∀ k i, (¬ ExQ E k ∨ given s.edges (E.w k (idirq i).1) (E.w k (idirq i).2) = none) →
        s'.qedg k i = s.qedg k i ∧ s'.qtag k i = s.qtag k i) := by
  have he := entry_eq E s
  set s1 : St := if s.called then s else { s with tag := cleanAll E s.tag, called := true } with hs1
  have e1 : s1.edges = s.edges ∧ s1.edg = s.edg ∧ s1.qtag = s.qtag ∧ s1.qedg = s.qedg ∧ s1.called = true := by
    rw [hs1]; cases hc : s.called <;> simp [hc]
  obtain ⟨e1, e2, e3, e4, e5⟩ := e1
  have hA : assignEdge E g s = (if s1.edges.length = 0 then .ok s1 else
    match hashAll g s1.edges 1 (hashNew s1.edges.length (3 * s1.edges.length)) with
    | .ub => .ub
    | .fail => .fail
    | .ok h =>
      match loop (triSide E h s1.edges) (triSides E) s1 with
      | .ub => .ub
      | .fail => .fail
      | .ok s1' =>
        match loop (quadSide E h s1.edges) (quadSides E) s1' with
        | .ub => .ub
        | .fail => .fail
        | .ok s2 => .ok { s2 with edges := [] }) := rfl
  rw [hA]
  clear_value s1
  have turn : ∀ i : Fin 3, i + 1 + 1 = i + 2 := by decide
  by_cases h0 : s1.edges.length = 0
  · right
    rw [if_pos h0]
    have hnil : s.edges = [] := by rw [← e1]; exact List.length_eq_zero_iff.1 h0
    refine ⟨s1, rfl, by rw [e1, hnil], e5, ?_, ?_, ?_, ?_⟩
    · intro k i e _ h; rw [hnil] at h; exact absurd h (by simp [given])
    · intro k i _; exact ⟨by rw [e2], by rw [he]⟩
    · intro k i e _ h; rw [hnil] at h; exact absurd h (by simp [given])
    · intro k i _; exact ⟨by rw [e4], by rw [e3]⟩
  · rw [if_neg h0]
    rcases hashAll_spec hg s1.edges 1 (by rw [e1]; exact hp)
        (Hash.inv_hashNew false s1.edges.length (3 * s1.edges.length) (by omega)) with ⟨h1, h2⟩ | ⟨h, M, h1, I, h2⟩
    · left; rw [h1]; exact ⟨rfl, h2⟩
    · right
      have hM : ∀ a b, M (Nat.min a b, Nat.max a b, 0) = (s1.edges.findIdx? fun e => decide (Joins a b e)).map (· + 1) := by
        intro a b; rw [h2 a b]; rfl
      rw [h1]
      simp only
      rw [loop_pure (tri_pure I hM E), ]
      simp only
      rw [loop_pure (quad_pure I hM E)]
      simp only
      obtain ⟨t1, t2, t3, t4⟩ := tri_fold E s1.edges (triSides E) s1 (tri_nodup E)
      obtain ⟨q1, q2, q3, q4⟩ := quad_fold E s1.edges (quadSides E) ((triSides E).foldl (triP E s1.edges) s1) (quad_nodup E)
      refine ⟨_, rfl, rfl, by rw [q3, t3, e5], ?_, ?_, ?_, ?_⟩
      · intro k i e hk hgv
        simp only [q1, q2]
        have := t4 k i
        rw [if_pos ((mem_tri E k _).2 hk), turn, e1, hgv] at this
        rw [e1]
        exact ⟨congrArg Prod.snd this, by rw [← he]; exact congrArg Prod.fst this⟩
      · intro k i hh
        simp only [q1, q2]
        have := t4 k i
        have hn : (if (k, i + 1) ∈ triSides E then given s1.edges (E.v k (i + 1)) (E.v k (i + 1 + 1)) else none) = none := by
          rw [turn, e1]
          rcases hh with h | h
          · rw [if_neg (fun x => h ((mem_tri E k _).1 x))]
          · rw [h]; split <;> rfl
        rw [hn] at this
        exact ⟨by rw [← e2]; exact congrArg Prod.snd this, by rw [← he]; exact congrArg Prod.fst this⟩
      · intro k i e hk hgv
        have := q4 k i
        rw [if_pos ((mem_quad E k _).2 hk), e1, hgv] at this
        have h1 := congrArg Prod.fst this
        have h2 := congrArg Prod.snd this
        rw [← e1, t1, e3] at h1
        rw [← e1] at h2
        exact ⟨h2, h1⟩
      · intro k i hh
        have := q4 k i
        have hn : (if (k, i) ∈ quadSides E then given s1.edges (E.w k (idirq i).1) (E.w k (idirq i).2) else none) = none := by
          rw [e1]
          rcases hh with h | h
          · rw [if_neg (fun x => h ((mem_quad E k _).1 x))]
          · rw [h]; split <;> rfl
        rw [hn] at this
        have h1 := congrArg Prod.fst this
        have h2 := congrArg Prod.snd this
        rw [t1, e3] at h1
        rw [t2, e4] at h2
        exact ⟨h2, h1⟩

/-! ### With the analysis and the packing -/

/-- The mesh `M` that is packed is the one of the analysis: triangles and links of `D`, tags given by the analysis, references
of the edges given by the transfer. -/
structure Carries {α β K : Type} (D : Edge2.Env) (edg : Nat → Fin 3 → Int) (tag : Nat → Fin 3 → BitVec 16)
    (M : Pack2.Mesh α β K) : Prop where
  nt : M.nt = D.nt
  v : ∀ k (i : Fin 3), (M.tri k).v i.val = D.v k i
  ref : ∀ k, (M.tri k).dat.ref = D.ref k
  adj : ∀ k (i : Fin 3), 1 ≤ k → M.adja (Pack2.tidx k i.val) = D.adj k i
  edg : ∀ k (i : Fin 3), (M.tri k).dat.edg i.val = edg k i
  tag : ∀ k (i : Fin 3), (M.tri k).dat.tag i.val = tag k i

/-- Adjacent triangles share the two vertices of their common edge (in opposite directions). -/
def Glued (D : Edge2.Env) : Prop := ∀ k i, Edge2.Ex D k → D.adj k i ≠ 0 →
  D.v (Edge2.nb D k i) (Edge2.np D k i + 1) = D.v k (i + 2) ∧ D.v (Edge2.nb D k i) (Edge2.np D k i + 2) = D.v k (i + 1)

theorem has_sub {x m b : BitVec 16} (h : has x b = false) : has (x &&& m) b = false := by
  have h' : x &&& b = 0#16 := by simpa [has] using h
  have : x &&& m &&& b = 0#16 := by
    rw [BitVec.and_assoc, BitVec.and_comm m b, ← BitVec.and_assoc, h']; simp
  simp [has, this]

theorem due_req {D : Edge2.Env} {tag : Nat → Fin 3 → BitVec 16} (hn : ∀ k i, has (tag k i) mgNOSURF = false) {k i}
    (hr : has (tag k i) mgREQ = true) :
    has (Edge2.due D tag k i) mgREQ = true ∧ has (Edge2.due D tag k i) mgNOSURF = false := by
  have h1 : has (Edge2.said D tag k i) mgREQ = true := by
    unfold Edge2.said
    split
    · exact hr
    · split
      · unfold has at hr ⊢
        rw [BitVec.and_assoc, show ~~~(mgREF ||| mgGEO ||| mgBDY) &&& mgREQ = mgREQ from by decide]
        have := Orient.has_or (tag k i) (tag (Edge2.nb D k i) (Edge2.np D k i)) mgREQ
        unfold has at this
        rw [this, hr]; rfl
      · rw [Orient.has_or, hr]; rfl
  have h2 : has (Edge2.said D tag k i) mgNOSURF = false := by
    unfold Edge2.said
    split
    · exact hn _ _
    · have : has (tag k i ||| tag (Edge2.nb D k i) (Edge2.np D k i)) mgNOSURF = false := by
        rw [Orient.has_or, hn, hn]; rfl
      split
      · exact has_sub this
      · exact this
  have h3 : ¬ Edge2.Frozen D tag k i := fun h => by rw [h.1] at h1; exact absurd h1 (by decide)
  unfold Edge2.due
  have h4 : (if (D.adj k i = 0 ∨ Edge2.Interface D tag k i) ∧ Edge2.Frozen D tag k i then mgREQ ||| mgNOSURF else 0#16) = 0#16 :=
    if_neg (fun h => h3 h.2)
  rw [h4]
  simp only [Orient.has_or, h1, h2, Orient.has_zero, Bool.true_or, Bool.or_true, Bool.false_or, Bool.or_false, true_and]
  split
  · decide
  · split
    · decide
    · decide

theorem plain_req {t : BitVec 16} (h1 : has t mgREQ = true) (h2 : has t mgNOSURF = false) :
    has (Pack2.plain t) mgREQ = true ∧ Pack2.plain t &&& (Pack3.CRN ||| Pack3.REQ) ≠ 0 := by
  have hp : Pack2.plain t = t := by
    unfold Pack2.plain
    rw [if_neg]
    intro h
    have h' : t &&& mgNOSURF = 0#16 := by simpa [has] using h2
    exact h h'
  rw [hp]
  refine ⟨h1, fun h => ?_⟩
  have h' : t &&& mgREQ ≠ 0#16 := by simpa [has] using h1
  apply h'
  have : t &&& (Pack3.CRN ||| Pack3.REQ) &&& mgREQ = 0 &&& mgREQ := by rw [h]
  rw [BitVec.and_assoc, show (Pack3.CRN ||| Pack3.REQ) &&& mgREQ = mgREQ from by decide] at this
  rw [this]; decide

theorem given_joins {es : List Edge} {a b : Nat} {e : Edge} (h : given es a b = some e) : e ∈ es ∧ Joins a b e := by
  unfold given at h
  exact ⟨List.mem_of_find?_eq_some h, by simpa using List.find?_some h⟩

theorem inxt_fin (i : Fin 3) : Pack2.inxt2 i.val = (i + 1).val ∧ Pack2.iprv2 i.val = (i + 2).val := by
  revert i; decide

theorem entry_nosurf {E : Env} {s : St} (hs : ∀ k i, has (s.tag k i) mgNOSURF = false) (k i) :
    has (entry E s k i) mgNOSURF = false := by
  unfold entry
  split
  · exact has_sub (hs k i)
  · exact hs k i

/-- The sides of a quadrilateral that `C84_assign` speaks of are the four pairs of consecutive vertices, each once. -/
theorem C84_quad_sides : (∀ i : Fin 4, ∃ a, s((idirq i).1, (idirq i).2) = s(a, a + 1)) ∧
    (∀ a : Fin 4, ∃! i, s((idirq i).1, (idirq i).2) = s(a, a + 1)) := by
  unfold ExistsUnique
  decide

/-- From the transfer to the output: the edges of the user that lie on the outer boundary, or between two references, or that
are required, come back.  The output contains an edge between the same two vertices (renumbered), with the reference of
the first edge given there, and required if that edge is. -/
theorem C84_round_trip {α β K : Type} {E : Env} {s s1 : St} {g : Nat → Option Nat} (hg : ∀ k n, g k = some n → 1 ≤ n)
    (hp : ∀ e ∈ s.edges, e.a ≠ 0 ∧ e.b ≠ 0) (hA : assignEdge E g s = .ok s1)
    (hs : ∀ k i, has (s.tag k i) mgNOSURF = false) (hes : ∀ e ∈ s.edges, has e.tag mgNOSURF = false)
    {D : Edge2.Env} (G : Edge2.Good D) (hnt : D.nt = E.nt) (hv : D.v = E.v) (hgl : Glued D)
    {init : Bool} {cc : Nat → Nat} {pt : Nat → BitVec 16} {qt qt' : Nat → Fin 4 → BitVec 16} {n : Nat} {s2 : Edge2.St}
    (hc : init = true ∨ ∀ k, Edge2.Ex D k → cc k = 0) (hB : Edge2.setadj D init [] ⟨s1.tag, cc, pt⟩ qt = some (s2, qt', n))
    {M : Pack2.Mesh α β K} (hM : Carries D s1.edg s2.tag M) (R : Pack2.Ready M)
    (zp : α) (zt : Pack2.Side β) (e0 : Nat → Pack2.Edge) (opn : Bool) :
    ∃ M' nc new τ κ, Pack2.pack zp zt e0 opn true M = some (M', nc, true) ∧ Pack2.Consistent M M' new τ κ ∧
      ∀ k i e, ExT E k → given s.edges (E.v k (i + 1)) (E.v k (i + 2)) = some e →
        (D.adj k i = 0 ∨ D.ref (Edge2.nb D k i) ≠ D.ref k ∨ has e.tag mgREQ = true) →
        ∃ j, 1 ≤ j ∧ j ≤ M'.na ∧ s((M'.edge j).a, (M'.edge j).b) = s(new e.a, new e.b) ∧ (M'.edge j).ref = e.ref ∧
          (has e.tag mgREQ = true → has (M'.edge j).tag mgREQ = true) := by
  obtain ⟨M', nc, new, τ, κ, n1, φ, ψ, h1, h2, h3, -, -, -⟩ := Pack2.C56_edge_table zp zt e0 opn R
  refine ⟨M', nc, new, τ, κ, h1, h2, ?_⟩
  rcases C84_assign (E := E) hg hp with ⟨hf, _⟩ | ⟨s1', ho, _, _, hT, hN, _, _⟩
  · rw [hf] at hA; exact absurd hA (by simp)
  have hs1 : s1' = s1 := by rw [ho] at hA; exact Outcome.ok.inj hA
  subst hs1
  obtain ⟨s2', n', e2, hD, -, -⟩ := Edge2.C83_analysis (qt := qt) (s := ⟨s1'.tag, cc, pt⟩) G hc
  rw [hB] at e2
  simp only [Option.some.injEq, Prod.mk.injEq] at e2
  obtain ⟨rfl, -, -⟩ := e2
  have hns : ∀ k i, has (s1'.tag k i) mgNOSURF = false := by
    intro k i
    by_cases hk : ExT E k
    · cases hgv : given s.edges (E.v k (i + 1)) (E.v k (i + 2)) with
      | none => rw [(hN k i (Or.inr hgv)).2]; exact entry_nosurf hs k i
      | some e =>
        rw [(hT k i e hk hgv).2, Orient.has_or, entry_nosurf hs k i, hes e (given_joins hgv).1]; rfl
    · rw [(hN k i (Or.inl hk)).2]; exact entry_nosurf hs k i
  have hex : ∀ k, ExT E k ↔ Edge2.Ex D k := by
    intro k; unfold ExT Edge2.Ex; rw [hnt, hv]
  have hval : ∀ k, Edge2.Ex D k → Pack2.ValT M k := by
    rintro k ⟨a, b, c⟩
    refine ⟨a, by rw [hM.nt]; exact b, ?_⟩
    have := hM.v k 0
    exact Nat.pos_of_ne_zero (by rw [show (M.tri k).v 0 = D.v k 0 from this]; exact c)
  -- a side that is listed
  have listed : ∀ k (i : Fin 3) e, ExT E k → given s.edges (E.v k (i + 1)) (E.v k (i + 2)) = some e →
      (D.adj k i = 0 ∨ D.ref (Edge2.nb D k i) < D.ref k ∨
        (D.ref (Edge2.nb D k i) = D.ref k ∧ has e.tag mgREQ = true)) →
        ∃ j, 1 ≤ j ∧ j ≤ M'.na ∧ s((M'.edge j).a, (M'.edge j).b) = s(new e.a, new e.b) ∧ (M'.edge j).ref = e.ref ∧
          (has e.tag mgREQ = true → has (M'.edge j).tag mgREQ = true) := by
    intro k i e hk hgv hl
    have htg := (hT k i e hk hgv).2
    have hreq : has e.tag mgREQ = true → has (Pack2.plain ((M.tri k).dat.tag i.val)) mgREQ = true ∧
        Pack2.plain ((M.tri k).dat.tag i.val) &&& (Pack3.CRN ||| Pack3.REQ) ≠ 0 := by
      intro hr
      rw [hM.tag k i, hD k i ((hex k).1 hk)]
      have := due_req (D := D) hns (k := k) (i := i) (by rw [htg, Orient.has_or, hr]; simp)
      exact plain_req this.1 this.2
    have hside : Pack2.TriSide opn M k i.val := by
      refine ⟨hval k ((hex k).1 hk), i.isLt, ?_⟩
      rw [hM.adj k i hk.1, hM.ref, hM.ref]
      rcases hl with h | h | ⟨h, hr⟩
      · left; rw [h]
      · right; left; exact h
      · right; right; left; exact ⟨h.symm, (hreq hr).2⟩
    have hin := h3.tri.1 (show (k, i.val) ∈ {x : Nat × Nat | Pack2.TriSide opn M x.1 x.2} from hside)
    rw [Set.mem_Icc] at hin
    refine ⟨φ (k, i.val), hin.1, hin.2.trans h3.le, ?_, ?_, ?_⟩
    · rw [h3.triEdge k i.val hside]
      simp only
      rw [(inxt_fin i).1, (inxt_fin i).2, hM.v k (i + 1), hM.v k (i + 2), hv]
      rcases (given_joins hgv).2 with ⟨a, b⟩ | ⟨a, b⟩
      · rw [a, b]
      · rw [a, b]; exact Sym2.eq_swap
    · rw [h3.triEdge k i.val hside]
      simp only
      rw [hM.edg k i, (hT k i e hk hgv).1]
    · intro hr
      rw [h3.triEdge k i.val hside]
      exact (hreq hr).1
  intro k i e hk hgv hl
  by_cases h0 : D.adj k i = 0
  · exact listed k i e hk hgv (Or.inl h0)
  rcases lt_trichotomy (D.ref (Edge2.nb D k i)) (D.ref k) with hlt | heq | hgt
  · exact listed k i e hk hgv (Or.inr (Or.inl hlt))
  · refine listed k i e hk hgv (Or.inr (Or.inr ⟨heq, ?_⟩))
    rcases hl with h | h | h
    · exact absurd h h0
    · exact absurd heq h
    · exact h
  · -- the edge is listed from the other side
    obtain ⟨l1, _, l3⟩ := G.link k i ((hex k).1 hk) h0
    obtain ⟨g1, g2⟩ := hgl k i ((hex k).1 hk) h0
    have hb : Edge2.nb D (Edge2.nb D k i) (Edge2.np D k i) = k := by
      have hi := i.isLt
      unfold Edge2.nb at l3 ⊢; rw [l3]; omega
    refine listed (Edge2.nb D k i) (Edge2.np D k i) e ((hex _).2 l1) ?_ (Or.inr (Or.inl (by rw [hb]; exact hgt)))
    rw [← hv, g1, g2, hv, given_comm]
    exact hgv

/-! Two triangles of different references, the user gives their common edge with reference 7 and requires it. -/

def exE : Env := ⟨2, (Edge2.sq 2 false false).v, 0, fun _ _ => 0⟩
def exS : St := ⟨fun _ _ => 0, fun _ _ => 0, fun _ _ => 0, fun _ _ => 0, [⟨3, 1, 7, mgREQ⟩], false⟩

/-- The mesh made of these triangles. -/
def meshOf (D : Edge2.Env) (edg : Nat → Fin 3 → Int) (tag : Nat → Fin 3 → BitVec 16) (np : Nat) : Pack2.Mesh Unit Unit Unit where
  np := np
  npmax := np
  npnil := 0
  pt := fun _ => ⟨0, 0, ()⟩
  nt := D.nt
  ntmax := D.nt
  nenil := 0
  tri := fun k => ⟨fun j => D.v k (Orient.m3 j), ⟨D.ref k, fun j => tag k (Orient.m3 j), fun j => edg k (Orient.m3 j), ()⟩⟩
  adja := fun x => D.adj ((x - 1) / 3 + 1) (Orient.m3 ((x - 1) % 3))
  quads := ⟨0, fun _ => ⟨fun _ => 0, ⟨0, fun _ => 0, fun _ => 0, ()⟩⟩⟩
  adjq := fun _ => 0
  na := 0
  edge := fun _ => ⟨0, 0, 0, 0, 0⟩
  sol := none
  met := none

theorem m3_val (i : Fin 3) : Orient.m3 i.val = i := by revert i; decide

theorem meshOf_adj (D edg tag np) (k : Nat) (i : Fin 3) (hk : 1 ≤ k) :
    (meshOf D edg tag np).adja (Pack2.tidx k i.val) = D.adj k i := by
  have hi := i.isLt
  simp only [meshOf, Pack2.tidx]
  rw [show (3 * (k - 1) + 1 + i.val - 1) / 3 + 1 = k by omega, show (3 * (k - 1) + 1 + i.val - 1) % 3 = i.val by omega, m3_val]

theorem meshOf_carries (D edg tag np) : Carries D edg tag (meshOf D edg tag np) where
  nt := rfl
  v := fun k i => by simp only [meshOf]; rw [m3_val]
  ref := fun _ => rfl
  adj := fun k i hk => meshOf_adj D edg tag np k i hk
  edg := fun k i => by simp only [meshOf]; rw [m3_val]
  tag := fun k i => by simp only [meshOf]; rw [m3_val]

theorem meshOf_ready {D : Edge2.Env} (G : Edge2.Good D) {np : Nat} (hv : ∀ k i, Edge2.Ex D k → 1 ≤ D.v k i ∧ D.v k i ≤ np)
    (edg tag) : Pack2.Ready (meshOf D edg tag np) := by
  have hex : ∀ k, Pack2.ValT (meshOf D edg tag np) k → Edge2.Ex D k := by
    rintro k ⟨a, b, c⟩
    exact ⟨a, b, Nat.ne_of_gt c⟩
  refine ⟨?_, ?_, ?_⟩
  · intro k hk i _
    exact ⟨(hv k (Orient.m3 i) (hex k hk)).1, (hv k (Orient.m3 i) (hex k hk)).2, (by decide : (0#16).toNat < 32768)⟩
  · rintro k ⟨a, b, _⟩
    have : k ≤ 0 := b
    omega
  · intro k hk i hi h
    have he := hex k hk
    have hm : Orient.m3 i = ⟨i, hi⟩ := m3_val ⟨i, hi⟩
    rw [meshOf_adj D edg tag np k ⟨i, hi⟩ he.1] at h
    obtain ⟨l1, l2, l3⟩ := G.link k ⟨i, hi⟩ he h
    refine ⟨Edge2.nb D k ⟨i, hi⟩, (Edge2.np D k ⟨i, hi⟩).val, (Edge2.np D k ⟨i, hi⟩).isLt,
      ⟨l1.1, l1.2.1, Nat.pos_of_ne_zero l1.2.2⟩, l2, ?_, ?_⟩
    · unfold Pack2.Joined
      rw [meshOf_adj D edg tag np k ⟨i, hi⟩ he.1]
      unfold Edge2.nb Edge2.np Orient.m3
      simp only
      omega
    · unfold Pack2.Joined
      rw [meshOf_adj D edg tag np _ _ l1.1, l3]

theorem sq_ex {r op ns k} (hk : Edge2.Ex (Edge2.sq r op ns) k) : k = 1 ∨ k = 2 := by
  have h1 := hk.1
  have h2 : k ≤ 2 := hk.2.1
  omega

theorem sq_glued (r op ns) : Glued (Edge2.sq r op ns) := by
  intro k i hk h
  rcases sq_ex hk with rfl | rfl
  · have : i = 1 := by
      revert h
      simp only [Edge2.sq]
      revert i; decide
    subst this; simp only [Edge2.sq, Edge2.nb, Edge2.np]; decide
  · have : i = 2 := by
      revert h
      simp only [Edge2.sq]
      revert i; decide
    subst this; simp only [Edge2.sq, Edge2.nb, Edge2.np]; decide

example : ∃ s1 s2 qt' n, assignEdge exE (fun _ => some 1) exS = .ok s1 ∧
    Edge2.setadj (Edge2.sq 2 false false) true [] ⟨s1.tag, fun _ => 0, fun _ => 0⟩ (fun _ _ => 0) = some (s2, qt', n) ∧
    ∃ M' nc, Pack2.pack () ⟨0, fun _ => 0, fun _ => 0, ()⟩ (fun _ => ⟨0, 0, 0, 0, 0⟩) false true
      (meshOf (Edge2.sq 2 false false) s1.edg s2.tag 4) = some (M', nc, true) ∧
      ∃ j, 1 ≤ j ∧ j ≤ M'.na ∧ (M'.edge j).ref = 7 ∧ has (M'.edge j).tag mgREQ = true := by
  have hg : ∀ k n : Nat, (fun _ : Nat => some 1) k = some n → 1 ≤ n := fun k n h => by simp at h; omega
  have hp : ∀ e ∈ exS.edges, e.a ≠ 0 ∧ e.b ≠ 0 := by simp [exS]
  rcases C84_assign (E := exE) (s := exS) (g := fun _ => some 1) hg hp with ⟨_, j, h⟩ | ⟨s1, hA, _⟩
  · exact absurd h (by simp)
  obtain ⟨s2, n, hB, _⟩ := Edge2.C83_analysis (s := ⟨s1.tag, fun _ => 0, fun _ => 0⟩) (qt := fun _ _ => 0) (init := true)
    (Edge2.sq_good 2 false false) (Or.inl rfl)
  have hv : ∀ k i, Edge2.Ex (Edge2.sq 2 false false) k → 1 ≤ (Edge2.sq 2 false false).v k i ∧ (Edge2.sq 2 false false).v k i ≤ 4 := by
    intro k i hk
    rcases sq_ex hk with rfl | rfl <;> revert i <;> decide
  obtain ⟨M', nc, new, τ, κ, h1, _, h3⟩ := C84_round_trip hg hp hA (by intro k i; exact Orient.has_zero _)
    (by simp only [exS, List.mem_singleton]; rintro e rfl; decide)
    (Edge2.sq_good 2 false false) rfl rfl (sq_glued 2 false false) (Or.inl rfl) hB (meshOf_carries _ _ _ 4)
    (meshOf_ready (Edge2.sq_good 2 false false) hv _ _) () ⟨0, fun _ => 0, fun _ => 0, ()⟩ (fun _ => ⟨0, 0, 0, 0, 0⟩) false
  obtain ⟨j, j1, j2, _, j4, j5⟩ := h3 1 1 ⟨3, 1, 7, mgREQ⟩ ⟨by decide, (by decide : 1 ≤ 2), by decide⟩ rfl (Or.inr (Or.inr (by decide)))
  exact ⟨s1, s2, _, n, hA, hB, M', nc, h1, j, j1, j2, j4, j5 (by decide)⟩

/-- Finding: of two edges given by the user between the same vertices only the first one counts; the reference and the status
of the second one are lost, although the code accepts it. -/
theorem C84_duplicate_observed :
    ∃ s', assignEdge ⟨1, fun k j => if k = 1 then j.val + 1 else 0, 0, fun _ _ => 0⟩ (fun _ => some 1)
      ⟨fun _ _ => 0, fun _ _ => 0, fun _ _ => 0, fun _ _ => 0, [⟨1, 2, 7, 0⟩, ⟨2, 1, 8, mgREQ⟩], false⟩ = .ok s' ∧
      s'.edg 1 2 = 7 ∧ has (s'.tag 1 2) mgREQ = false := by
  rcases C84_assign (E := ⟨1, fun k j => if k = 1 then j.val + 1 else 0, 0, fun _ _ => 0⟩) (g := fun _ => some 1)
    (s := ⟨fun _ _ => 0, fun _ _ => 0, fun _ _ => 0, fun _ _ => 0, [⟨1, 2, 7, 0⟩, ⟨2, 1, 8, mgREQ⟩], false⟩)
    (fun k n h => by simp at h; omega) (by simp) with ⟨_, j, h⟩ | ⟨s', h, _, _, hT, _⟩
  · exact absurd h (by simp)
  · have := hT 1 2 ⟨1, 2, 7, 0⟩ (by unfold ExT; decide) rfl
    refine ⟨s', h, this.1, ?_⟩
    rw [this.2]
    decide

/-- Finding: the sides the user has required on a triangle are forgotten unless all three are. -/
theorem C84_required_side_dropped_observed :
    ∃ s', assignEdge ⟨1, fun k j => if k = 1 then j.val + 1 else 0, 0, fun _ _ => 0⟩ (fun _ => some 1)
      ⟨fun _ j => if j = 0 then mgREQ else 0, fun _ _ => 0, fun _ _ => 0, fun _ _ => 0, [], false⟩ = .ok s' ∧
      has (s'.tag 1 0) mgREQ = false := by
  rcases C84_assign (E := ⟨1, fun k j => if k = 1 then j.val + 1 else 0, 0, fun _ _ => 0⟩) (g := fun _ => some 1)
    (s := ⟨fun _ j => if j = 0 then mgREQ else 0, fun _ _ => 0, fun _ _ => 0, fun _ _ => 0, [], false⟩)
    (fun k n h => by simp at h; omega) (by simp) with ⟨_, j, h⟩ | ⟨s', h, _, _, _, hN, _⟩
  · exact absurd h (by simp)
  · have := hN 1 0 (Or.inr rfl)
    refine ⟨s', h, ?_⟩
    rw [this.2]
    decide

end Mmg.UEdge
