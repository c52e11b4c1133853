/-
  C100. Local parameters of the surface library: what is set, when the table overflows, and the file.
-/
import Verif.ParSModel
import Verif.ParFile
import Mathlib.Data.Finset.Card
import Mathlib.Data.Finset.Basic

namespace Mmg.ParS

open Mmg.ParFile

variable {R : Type}

/-! ### Specification of the calls -/

/-- A call that can be accepted. -/
def Valid (pos : R → Bool) (tri : Bool) (ref : Int) (h : R × R × R) : Prop :=
  tri = true ∧ 0 ≤ ref ∧ pos h.1 = true ∧ pos h.2.1 = true ∧ pos h.2.2 = true

instance (pos : R → Bool) (tri : Bool) (ref : Int) (h : R × R × R) : Decidable (Valid pos tri ref h) := by
  unfold Valid; infer_instance

/-- At no time more references have been given than announced: `n` announced, `s` given so far. -/
def Fits (pos : R → Bool) : Nat → Finset Int → List (Op R) → Prop
  | _, _, [] => True
  | _, _, .number m :: ops => Fits pos m ∅ ops
  | n, s, .set tri ref h :: ops =>
    if n ≠ 0 ∧ Valid pos tri ref h then (insert ref s).card ≤ n ∧ Fits pos n (insert ref s) ops else Fits pos n s ops

/-- The values the calls ask for: those of the last valid call for the reference after the last announcement. -/
def wants (pos : R → Bool) : Nat → (Int → Option (R × R × R)) → List (Op R) → Int → Option (R × R × R)
  | _, f, [] => f
  | _, _, .number m :: ops => wants pos m (fun _ => none) ops
  | n, f, .set tri ref h :: ops =>
    if n ≠ 0 ∧ Valid pos tri ref h then wants pos n (fun r => if r = ref then some h else f r) ops else wants pos n f ops

/-- A table that holds the references `s`. -/
structure Holds (t : Tab R) (s : Finset Int) : Prop where
  room : t.par.length ≤ t.npar
  card : t.par.length = s.card
  elt : ∀ p ∈ t.par, p.elt = .tria
  refs : ∀ r, r ∈ s ↔ ∃ p ∈ t.par, p.ref = r

theorem upd_any (ref : Int) (l : List (Par R)) (s : Finset Int) (he : ∀ p ∈ l, p.elt = .tria)
    (hr : ∀ r, r ∈ s ↔ ∃ p ∈ l, p.ref = r) : l.any (fun p => decide (p.elt = .tria ∧ p.ref = ref)) = true ↔ ref ∈ s := by
  rw [List.any_eq_true, hr]
  constructor
  · rintro ⟨p, hp, h⟩
    exact ⟨p, hp, (of_decide_eq_true h).2⟩
  · rintro ⟨p, hp, h⟩
    exact ⟨p, hp, decide_eq_true ⟨he p hp, h⟩⟩

/-- One call. -/
theorem setLocal_spec (pos : R → Bool) (tri : Bool) (ref : Int) (h : R × R × R) (t : Tab R) (s : Finset Int) (g : Holds t s) :
    (¬(t.npar ≠ 0 ∧ Valid pos tri ref h) → setLocal pos tri ref h t = .refused) ∧
    (t.npar ≠ 0 ∧ Valid pos tri ref h → t.npar < (insert ref s).card → setLocal pos tri ref h t = .oob) ∧
    (t.npar ≠ 0 ∧ Valid pos tri ref h → (insert ref s).card ≤ t.npar → ∃ t', setLocal pos tri ref h t = .done t' ∧ t'.npar = t.npar ∧
      Holds t' (insert ref s) ∧ ∀ r, t'.get .tria r = if r = ref then some h else t.get .tria r) := by
  have hany := upd_any ref t.par s g.elt g.refs
  refine ⟨?_, ?_, ?_⟩
  · intro hv
    unfold setLocal
    split_ifs with a b c d e f i j k
    · rfl
    · rfl
    · rfl
    · rfl
    · rfl
    · rfl
    · rfl
    all_goals
      exfalso
      refine hv ⟨a, ?_, by omega, ?_, ?_, ?_⟩ <;> simp_all
  · rintro ⟨hn, h1, h2, h3, h4, h5⟩ hc
    have hs : ref ∉ s := by
      intro hm
      rw [Finset.insert_eq_of_mem hm, ← g.card] at hc
      have := g.room
      omega
    rw [Finset.card_insert_of_notMem hs, ← g.card] at hc
    have hany : ¬(t.par.any (fun p => decide (p.elt = .tria ∧ p.ref = ref)) = true) := fun x => hs (hany.mp x)
    have := g.room
    unfold setLocal
    rw [if_neg hn, if_neg (by omega), h1, if_neg (by simp), if_neg (by omega), h3, if_neg (by simp), h4, if_neg (by simp), h5,
      if_neg (by simp), if_neg hany, if_neg (by omega)]
  · rintro ⟨hn, h1, h2, h3, h4, h5⟩ hc
    have hroom := g.room
    unfold setLocal
    rw [if_neg hn, if_neg (by omega), h1, if_neg (by simp), if_neg (by omega), h3, if_neg (by simp), h4, if_neg (by simp), h5,
      if_neg (by simp)]
    by_cases hs : ref ∈ s
    · rw [if_pos (hany.mpr hs)]
      refine ⟨_, rfl, rfl, ?_, ?_⟩
      · rw [Finset.insert_eq_of_mem hs]
        have hk := upd_keys .tria ref h t.par
        have key : ∀ p ∈ upd .tria ref h t.par, ∃ q ∈ t.par, q.elt = p.elt ∧ q.ref = p.ref := by
          intro p hp
          have : (p.elt, p.ref) ∈ t.par.map (fun p => (p.elt, p.ref)) := by
            rw [← hk]; exact List.mem_map_of_mem (f := fun p : Par R => (p.elt, p.ref)) hp
          obtain ⟨q, hq, e⟩ := List.mem_map.mp this
          exact ⟨q, hq, congrArg Prod.fst e, congrArg Prod.snd e⟩
        have key' : ∀ q ∈ t.par, ∃ p ∈ upd .tria ref h t.par, p.ref = q.ref := by
          intro p hp
          have : (p.elt, p.ref) ∈ (upd .tria ref h t.par).map (fun p => (p.elt, p.ref)) := by
            rw [hk]; exact List.mem_map_of_mem (f := fun p : Par R => (p.elt, p.ref)) hp
          obtain ⟨q, hq, e⟩ := List.mem_map.mp this
          exact ⟨q, hq, congrArg Prod.snd e⟩
        refine ⟨?_, ?_, ?_, ?_⟩
        · show (upd .tria ref h t.par).length ≤ t.npar
          rw [upd_length]; exact hroom
        · show (upd .tria ref h t.par).length = s.card
          rw [upd_length]; exact g.card
        · intro p hp
          obtain ⟨q, hq, e, _⟩ := key p hp
          rw [← e]; exact g.elt q hq
        · intro r
          rw [g.refs]
          constructor
          · rintro ⟨p, hp, e⟩
            obtain ⟨q, hq, e'⟩ := key' p hp
            exact ⟨q, hq, e'.trans e⟩
          · rintro ⟨p, hp, e⟩
            obtain ⟨q, hq, _, e'⟩ := key p hp
            exact ⟨q, hq, e'.trans e⟩
      · intro r
        refine (upd_get .tria ref h t.par (hany.mpr hs) .tria r).trans ?_
        by_cases e : r = ref
        · rw [if_pos e, if_pos ⟨rfl, e.symm⟩]
        · rw [if_neg e, if_neg (fun c => e c.2.symm)]; rfl
    · rw [Finset.card_insert_of_notMem hs, ← g.card] at hc
      rw [if_neg (fun x => hs (hany.mp x)), if_pos (by omega)]
      refine ⟨_, rfl, rfl, ⟨?_, ?_, ?_, ?_⟩, ?_⟩
      · show (t.par ++ [_]).length ≤ t.npar
        rw [List.length_append, List.length_singleton]; omega
      · show (t.par ++ [_]).length = _
        rw [List.length_append, List.length_singleton, Finset.card_insert_of_notMem hs, g.card]
      · intro p hp
        rcases List.mem_append.mp hp with e | e
        · exact g.elt p e
        · rw [List.mem_singleton.mp e]
      · intro r
        rw [Finset.mem_insert, g.refs]
        show _ ↔ ∃ p ∈ t.par ++ [(⟨.tria, ref, h⟩ : Par R)], p.ref = r
        constructor
        · rintro (e | ⟨p, hp, e⟩)
          · exact ⟨⟨.tria, ref, h⟩, by simp, e.symm⟩
          · exact ⟨p, by simp [hp], e⟩
        · rintro ⟨p, hp, e⟩
          rcases List.mem_append.mp hp with m | m
          · exact .inr ⟨p, m, e⟩
          · rw [List.mem_singleton.mp m] at e; exact .inl e.symm
      · intro r
        unfold Tab.get
        rw [List.find?_append]
        by_cases e : r = ref
        · rw [if_pos e, e]
          have : (t.par.find? fun p => decide (p.elt = .tria ∧ p.ref = ref)) = none := by
            rw [List.find?_eq_none]
            intro p hp hq
            exact hs (hany.mp (List.any_eq_true.mpr ⟨p, hp, hq⟩))
          rw [this]
          simp
        · rw [if_neg e]
          have e' : ¬ref = r := fun c => e c.symm
          cases t.par.find? fun p => decide (p.elt = .tria ∧ p.ref = r) with
          | none => simp [e']
          | some _ => rfl

theorem run_spec (pos : R → Bool) : ∀ (ops : List (Op R)) (t : Tab R) (s : Finset Int), Holds t s →
    (Fits pos t.npar s ops → ∃ t', run pos t ops = some t' ∧ ∀ r, t'.get .tria r = wants pos t.npar (t.get .tria) ops r) ∧
    (¬Fits pos t.npar s ops → run pos t ops = none) := by
  intro ops
  induction ops with
  | nil => intro t s _; exact ⟨fun _ => ⟨t, rfl, fun _ => rfl⟩, fun h => absurd trivial h⟩
  | cons op ops ih =>
    intro t s g
    cases op with
    | number n => exact ih ⟨n, []⟩ ∅ ⟨by simp, by simp, fun p hp => (List.not_mem_nil hp).elim, fun r => by simp⟩
    | set tri ref h =>
      obtain ⟨a, b, c⟩ := setLocal_spec pos tri ref h t s g
      unfold Fits wants
      by_cases hv : t.npar ≠ 0 ∧ Valid pos tri ref h
      · rw [if_pos hv, if_pos hv]
        by_cases hc : (insert ref s).card ≤ t.npar
        · obtain ⟨t', e, e1, e2, e3⟩ := c hv hc
          obtain ⟨i1, i2⟩ := ih t' (insert ref s) e2
          have hr : run pos t (.set tri ref h :: ops) = run pos t' ops := by
            show (match setLocal pos tri ref h t with | .done t => run pos t ops | .refused => run pos t ops | .oob => none) = _
            rw [e]
          have ef : t'.get .tria = fun r => if r = ref then some h else t.get .tria r := funext e3
          rw [e1, ef] at i1
          rw [e1] at i2
          rw [hr]
          exact ⟨fun x => i1 x.2, fun x => i2 (fun y => x ⟨hc, y⟩)⟩
        · refine ⟨fun x => absurd x.1 hc, fun _ => ?_⟩
          show (match setLocal pos tri ref h t with | .done t => run pos t ops | .refused => run pos t ops | .oob => none) = _
          rw [b hv (by omega)]
      · rw [if_neg hv, if_neg hv]
        have hr : run pos t (.set tri ref h :: ops) = run pos t ops := by
          show (match setLocal pos tri ref h t with | .done t => run pos t ops | .refused => run pos t ops | .oob => none) = _
          rw [a hv]
        rw [hr]
        exact ih t s g

/-- C100.  A sequence of calls writes outside the table exactly if at some time more references have been given than announced. -/
theorem C100_overflow (pos : R → Bool) (ops : List (Op R)) : run pos ⟨0, []⟩ ops = none ↔ ¬Fits pos 0 ∅ ops := by
  obtain ⟨a, b⟩ := run_spec pos ops ⟨0, []⟩ ∅ ⟨by simp, by simp, fun p hp => (List.not_mem_nil hp).elim, fun r => by simp⟩
  refine ⟨fun h f => ?_, b⟩
  obtain ⟨t', e, _⟩ := a f
  rw [e] at h; cases h

/-- C100.  Otherwise every reference has the values of the last valid call for it, and no other reference has values. -/
theorem C100_values (pos : R → Bool) (ops : List (Op R)) (h : Fits pos 0 ∅ ops) :
    ∃ t', run pos ⟨0, []⟩ ops = some t' ∧ ∀ r, t'.get .tria r = wants pos 0 (fun _ => none) ops r :=
  (run_spec pos ops ⟨0, []⟩ ∅ ⟨by simp, by simp, fun p hp => (List.not_mem_nil hp).elim, fun r => by simp⟩).1 h

theorem fits_card (pos : R → Bool) (n : Nat) (hn : n ≠ 0) (h : R × R × R) (hh : pos h.1 = true ∧ pos h.2.1 = true ∧ pos h.2.2 = true) :
    ∀ (l : List Int) (s : Finset Int), (∀ r ∈ l, 0 ≤ r) → s.card ≤ n → Fits pos n s (l.map (fun r => .set true r h)) →
      (s ∪ l.toFinset).card ≤ n := by
  intro l
  induction l with
  | nil => intro s _ hs _; simpa using hs
  | cons r l ih =>
    intro s hl _ hf
    rw [List.map_cons] at hf
    unfold Fits at hf
    rw [if_pos ⟨hn, rfl, hl r (by simp), hh⟩] at hf
    have := ih (insert r s) (fun x hx => hl x (List.mem_cons_of_mem _ hx)) hf.1 hf.2
    rw [List.toFinset_cons]
    rwa [Finset.insert_union, ← Finset.union_insert] at this

/-- C100 fails in the surface library: after `n` has been announced, parameters for `n + 1` references are accepted by the checks and the
last one is written outside the table. -/
theorem C100_overflow_observed (pos : R → Bool) (n : Nat) (hn : n ≠ 0) (h : R × R × R)
    (hh : pos h.1 = true ∧ pos h.2.1 = true ∧ pos h.2.2 = true) :
    run pos ⟨0, []⟩ (.number n :: ((List.range (n + 1)).map Int.ofNat).map (fun r => .set true r h)) = none := by
  rw [C100_overflow]
  intro hf
  have hf : Fits pos n ∅ (((List.range (n + 1)).map Int.ofNat).map (fun r => .set true r h)) := hf
  have := fits_card pos n hn h hh _ ∅ (by
    intro r hr
    obtain ⟨k, _, rfl⟩ := List.mem_map.mp hr
    exact Int.natCast_nonneg k) (by simp) hf
  rw [Finset.empty_union, List.toFinset_card_of_nodup, List.length_map, List.length_range] at this
  · omega
  · exact List.Nodup.map (fun a b e => Int.ofNat.inj e) List.nodup_range

/-! ### The file -/

theorem setLocal_done (pos : R → Bool) (ref : Int) (h : R × R × R) (t : Tab R) (s : Finset Int) (g : Holds t s)
    (hl : t.par.length < t.npar) (hv : Valid pos true ref h) : ∃ t', setLocal pos true ref h t = .done t' ∧ t'.npar = t.npar ∧
      Holds t' (insert ref s) ∧ (∀ r, t'.get .tria r = if r = ref then some h else t.get .tria r) ∧
        t'.par.length ≤ t.par.length + 1 := by
  have hc : (insert ref s).card ≤ t.par.length + 1 := by
    rw [g.card]; exact Finset.card_insert_le ref s
  obtain ⟨t', a, b, c, d⟩ := (setLocal_spec pos true ref h t s g).2.2 ⟨by omega, hv⟩ (by omega)
  exact ⟨t', a, b, c, d, by rw [c.card]; exact hc⟩

theorem turn_ok (txt : Tok R → List Char) (whole : Int → R) (pos : R → Bool) (v : Vars R) (e : Ent R) (r : List (Tok R)) (t t' : Tab R)
    (hw : e.w.map Char.toLower = "triangles".toList ∨ e.w.map Char.toLower = "triangle".toList)
    (hs : setLocal pos true e.ref e.h t = .done t') : ∃ v', turn txt whole pos v (e.toks ++ r) t = .ok (v', r, t') := by
  refine ⟨⟨some e.ref, e.w.map Char.toLower, some e.h.1, some e.h.2.1, some e.h.2.2⟩, ?_⟩
  show (if e.w.map Char.toLower = "triangles".toList ∨ e.w.map Char.toLower = "triangle".toList then
    store pos ⟨some e.ref, e.w.map Char.toLower, some e.h.1, some e.h.2.1, some e.h.2.2⟩ r t else .fail) = _
  rw [if_pos hw]
  show (match setLocal pos true e.ref (e.h.1, e.h.2.1, e.h.2.2) t with
    | .done t => Ret.ok (_, r, t)
    | .refused => .fail
    | .oob => .oob) = _
  have : (e.h.1, e.h.2.1, e.h.2.2) = e.h := rfl
  rw [this, hs]

/-- The lines are about triangles. -/
def AllTria (pos : R → Bool) (es : List (Ent R)) : Prop := ∀ e ∈ es, e.Ok pos ∧ e.kind = .tria

theorem turns_ok (txt : Tok R → List Char) (whole : Int → R) (pos : R → Bool) (m : Nat) (r : List (Tok R)) : ∀ (es : List (Ent R))
    (v : Vars R) (t : Tab R) (s : Finset Int), AllTria pos es → Holds t s → t.par.length + es.length ≤ t.npar →
    ∃ v' t', turns txt whole pos (es.length + m) v (es.flatMap Ent.toks ++ r) t = turns txt whole pos m v' r t' ∧ t'.npar = t.npar ∧
      ∀ ref, t'.get .tria ref = (asks es .tria ref).or (t.get .tria ref) := by
  intro es
  induction es with
  | nil => intro v t s _ _ _; exact ⟨v, t, by simp, rfl, fun ref => rfl⟩
  | cons e es ih =>
    intro v t s h g hl
    obtain ⟨he, hk⟩ := h e (by simp)
    have hw : e.w.map Char.toLower = "triangles".toList ∨ e.w.map Char.toLower = "triangle".toList := by
      rcases he.kind with x | x
      · exact x.2
      · rw [hk] at x; cases x.1
    obtain ⟨t1, h1, n1, g1, q1, l1⟩ := setLocal_done pos e.ref e.h t s g (by simp at hl; omega) ⟨rfl, he.ref, he.h⟩
    obtain ⟨v1, hv⟩ := turn_ok txt whole pos v e (es.flatMap Ent.toks ++ r) t t1 hw h1
    obtain ⟨v2, t2, a, b, c⟩ := ih v1 t1 _ (fun x hx => h x (List.mem_cons_of_mem _ hx)) g1 (by simp at hl; omega)
    refine ⟨v2, t2, ?_, b.trans n1, ?_⟩
    · have hlen : (e :: es).length + m = (es.length + m) + 1 := by simp; omega
      rw [hlen, List.flatMap_cons, List.append_assoc, ← a]
      show (match turn txt whole pos v (e.toks ++ (es.flatMap Ent.toks ++ r)) t with
        | .ok (v, toks, t) => turns txt whole pos (es.length + m) v toks t
        | .minus t => .minus t
        | .fail => .fail
        | .ub => .ub
        | .oob => .oob
        | .other => .other) = _
      rw [hv]
    · intro ref
      rw [c, q1]
      unfold asks
      rw [List.reverse_cons, List.find?_append]
      cases es.reverse.find? fun e => decide (e.kind = .tria ∧ e.ref = ref) with
      | some _ => rfl
      | none =>
        simp only [List.find?_cons, List.find?_nil, Option.none_or, Option.map_none]
        by_cases d : ref = e.ref
        · rw [if_pos d, decide_eq_true ⟨hk, d.symm⟩]; rfl
        · rw [if_neg d, decide_eq_false (fun x => d x.2.symm)]; rfl

theorem holds_nil (n : Nat) : Holds (⟨n, []⟩ : Tab R) ∅ := ⟨by simp, by simp, fun p hp => (List.not_mem_nil hp).elim, fun r => by simp⟩

theorem read_par (txt : Tok R → List Char) (whole : Int → R) (pos : R → Bool) (fuel : Nat) (v : Vars R) (w : List Char)
    (nl : Bool) (r : List (Tok R)) (t : Tab R) (hw : w.map Char.toLower = "parameters".toList) (hr : r ≠ [] ∨ nl = true) :
    read txt whole pos nl (fuel + 1) v (.word w :: r) t = after (read txt whole pos nl fuel) (section_ txt whole pos v r t) := by
  show (if r.isEmpty && !nl then .ok t
      else if w.map Char.toLower = "lsreferences".toList ∨ w.map Char.toLower = "lsbasereferences".toList then .other
      else if w.map Char.toLower = "parameters".toList then
        after (read txt whole pos nl fuel) (section_ txt whole pos v r t)
      else .fail) = _
  rw [if_neg, if_neg (by rw [hw]; decide), if_pos hw]
  rcases hr with h | h
  · cases r with
    | nil => exact absurd rfl h
    | cons _ _ => simp
  · simp [h]

theorem section_lines (txt : Tok R → List Char) (whole : Int → R) (pos : R → Bool) (v : Vars R) (es : List (Ent R)) (t : Tab R) (m : Nat)
    (h0 : es.length + m ≠ 0) (hn : es.length + m ≤ 200) (h : AllTria pos es) :
    ∃ v' t', section_ txt whole pos v (.int (es.length + m : Nat) :: es.flatMap Ent.toks) t = turns txt whole pos m v' [] t' ∧
      t'.npar = es.length + m ∧ ∀ ref, t'.get .tria ref = asks es .tria ref := by
  obtain ⟨v', t', a, b, c⟩ := turns_ok txt whole pos m [] es v ⟨es.length + m, []⟩ ∅ h (holds_nil _) (by simp)
  rw [List.append_nil] at a
  refine ⟨v', t', ?_, b, fun ref => ?_⟩
  · show (if lparmax < ((es.length + m : Nat) : Int) then .fail
      else if ((es.length + m : Nat) : Int) = 0 then .ok (v, es.flatMap Ent.toks, t)
      else if ((es.length + m : Nat) : Int) < 0 then .other
      else turns txt whole pos (es.length + m) v (es.flatMap Ent.toks) ⟨es.length + m, []⟩) = _
    rw [if_neg (by unfold lparmax; omega), if_neg (by omega), if_neg (by omega)]
    exact a
  · rw [c]
    cases asks es .tria ref <;> rfl

/-- C100.  A file of at most 200 lines about triangles is accepted, the last line about a reference wins. -/
theorem C100_reads (txt : Tok R → List Char) (whole : Int → R) (pos : R → Bool) (es : List (Ent R)) (w : List Char) (v : Vars R)
    (t : Tab R) (hw : w.map Char.toLower = "parameters".toList) (h0 : es ≠ []) (hn : es.length ≤ 200) (h : AllTria pos es) (fuel : Nat) :
    ∃ t', read txt whole pos true (fuel + 2) v (.word w :: .int es.length :: es.flatMap Ent.toks) t = .ok t' ∧
      ∀ ref, t'.get .tria ref = asks es .tria ref := by
  have hpos : 0 < es.length := List.length_pos_iff.mpr h0
  obtain ⟨v', t', a, _, c⟩ := section_lines txt whole pos v es t 0 (by omega) (by omega) h
  refine ⟨t', ?_, c⟩
  rw [read_par _ _ _ _ _ _ _ _ _ hw (.inr rfl)]
  have a : section_ txt whole pos v (.int es.length :: es.flatMap Ent.toks) t = .ok (v', [], t') := a
  rw [a]
  rfl

/-- C100.  The file written by `-default` read again: every reference of a triangle has the sizes written, no other has. -/
theorem C100_roundtrip (txt : Tok R → List Char) (whole : Int → R) (pos : R → Bool) (cut : Int → Int) (h : R × R × R)
    (trias : List Int) (v : Vars R) (t : Tab R) (hn : (count cut trias).1.length ≤ 200) (ht : ∀ r, written cut trias r → 0 ≤ r)
    (hh : pos h.1 = true ∧ pos h.2.1 = true ∧ pos h.2.2 = true) (fuel : Nat) :
    ∃ t', read txt whole pos true (fuel + 2) v (write cut h trias) t = .ok t' ∧
      (∀ ref, t'.get .tria ref = some h ↔ written cut trias ref) ∧ (∀ ref, t'.get .tria ref = none ↔ ¬written cut trias ref) := by
  have hw : write cut h trias = .word "parameters".toList :: .int (((count cut trias).1.map (ent .tria h)).length : Nat) ::
      ((count cut trias).1.map (ent .tria h)).flatMap Ent.toks := by
    unfold write
    rw [ent_toks, (C99_list cut trias).2.2.2, List.length_map]
    rfl
  rw [hw]
  have h0 : (count cut trias).1.map (ent .tria h) ≠ [] := by
    intro c
    have c := List.map_eq_nil_iff.mp c
    have : written cut trias (match trias with | [] => cut 0 | x :: _ => cut x) := by
      cases trias with
      | nil => exact .inr ⟨rfl, rfl⟩
      | cons x l => exact .inl ⟨x, by simp, rfl⟩
    rw [← count_mem, c] at this
    exact List.not_mem_nil this
  obtain ⟨t', a, b⟩ := C100_reads txt whole pos _ "parameters".toList v t (by decide) h0 (by simpa using hn) (by
    intro e he'
    obtain ⟨r, hr, rfl⟩ := List.mem_map.mp he'
    exact ⟨⟨.inl ⟨rfl, .inr (by show "Triangle".toList.map Char.toLower = _; decide)⟩, ht r ((count_mem _ _ _).mp hr), hh⟩, rfl⟩) fuel
  have hq := fun ref => asks_ents h [] (count cut trias).1 .tria ref
  refine ⟨t', a, ?_, ?_⟩ <;> intro ref <;> rw [b] <;> have := hq ref <;> rw [List.map_nil, List.nil_append] at this <;> rw [this] <;>
    simp [count_mem]

/-- C100 fails for a file with fewer lines than announced: the reading stops with -1, which the program takes for success, and it goes on
with the lines that are there. -/
theorem C100_short_observed (txt : Tok R → List Char) (whole : Int → R) (pos : R → Bool) (es : List (Ent R)) (w : List Char) (v : Vars R)
    (t : Tab R) (hw : w.map Char.toLower = "parameters".toList) (m : Nat) (hn : es.length + (m + 1) ≤ 200) (h : AllTria pos es)
    (fuel : Nat) :
    ∃ t', goesOn (read txt whole pos true (fuel + 1) v (.word w :: .int (es.length + (m + 1) : Nat) :: es.flatMap Ent.toks) t) = some t' ∧
      ∀ ref, t'.get .tria ref = asks es .tria ref := by
  obtain ⟨v', t', a, _, c⟩ := section_lines txt whole pos v es t (m + 1) (by omega) hn h
  refine ⟨t', ?_, c⟩
  rw [read_par _ _ _ _ _ _ _ _ _ hw (.inr rfl), a]
  rfl

/-- C100 fails for a file with a word in place of the number, or nothing: the program goes on without local parameters. -/
theorem C100_word_observed (txt : Tok R → List Char) (whole : Int → R) (pos : R → Bool) (v : Vars R) (w : List Char)
    (hw : w.map Char.toLower = "parameters".toList) (x : List Char) (rest : List (Tok R)) (t : Tab R) (fuel : Nat) :
    goesOn (read txt whole pos true (fuel + 1) v (.word w :: .word x :: rest) t) = some t ∧
      goesOn (read txt whole pos true (fuel + 1) v [.word w] t) = some t := by
  constructor
  · rw [read_par _ _ _ _ _ _ _ _ _ hw (.inr rfl)]; rfl
  · rw [read_par _ _ _ _ _ _ _ _ _ hw (.inr rfl)]; rfl

/-- C100 fails silently also for a first line that starts with a word instead of a reference, or that ends after the reference: the program goes on
without any parameter. -/
theorem C100_line_observed (txt : Tok R → List Char) (whole : Int → R) (pos : R → Bool) (v : Vars R) (w : List Char)
    (hw : w.map Char.toLower = "parameters".toList) (n : Nat) (h0 : 0 < n) (hn : n ≤ 200) (x : List Char) (rest : List (Tok R)) (ref : Int) (t : Tab R)
    (fuel : Nat) :
    goesOn (read txt whole pos true (fuel + 1) v (.word w :: .int n :: .word x :: rest) t) = some ⟨n, []⟩ ∧
      goesOn (read txt whole pos true (fuel + 1) v [.word w, .int n, .int ref] t) = some ⟨n, []⟩ := by
  obtain ⟨m, rfl⟩ : ∃ m, n = m + 1 := ⟨n - 1, by omega⟩
  have h1 : ¬ lparmax < ((m + 1 : Nat) : Int) := by unfold lparmax; omega
  have h2 : ((m + 1 : Nat) : Int) ≠ 0 := by omega
  have h3 : ¬ ((m + 1 : Nat) : Int) < 0 := by omega
  constructor
  · rw [read_par _ _ _ _ _ _ _ _ _ hw (.inr rfl)]
    unfold section_
    simp only [h1, h2, h3, if_false, Int.toNat_natCast]
    rfl
  · rw [read_par _ _ _ _ _ _ _ _ _ hw (.inr rfl)]
    unfold section_
    simp only [h1, h2, h3, if_false, Int.toNat_natCast]
    rfl

/-! ### No file makes the table overflow -/

theorem turn_safe (txt : Tok R → List Char) (whole : Int → R) (pos : R → Bool) (v : Vars R) (toks : List (Tok R)) (t : Tab R)
    (s : Finset Int) (g : Holds t s) (hl : t.par.length < t.npar) :
    turn txt whole pos v toks t ≠ .oob ∧ ∀ v' toks' t', turn txt whole pos v toks t = .ok (v', toks', t') →
      ∃ s', Holds t' s' ∧ t'.npar = t.npar ∧ t'.par.length ≤ t.par.length + 1 := by
  have hs : ∀ (w : Vars R) (k : List (Tok R)), store pos w k t ≠ .oob ∧ ∀ v' toks' t', store pos w k t = .ok (v', toks', t') →
      ∃ s', Holds t' s' ∧ t'.npar = t.npar ∧ t'.par.length ≤ t.par.length + 1 := by
    intro w k
    unfold store
    split
    · rename_i n a b c _ _ _ _
      by_cases hv : Valid pos true n (a, b, c)
      · obtain ⟨t1, e, e1, e2, _, e3⟩ := setLocal_done pos n (a, b, c) t s g hl hv
        rw [e]
        refine ⟨(fun x => by cases x), fun v' toks' t' x => ?_⟩
        cases x
        exact ⟨_, e2, e1, e3⟩
      · rw [(setLocal_spec pos true n (a, b, c) t s g).1 (fun x => hv x.2)]
        exact ⟨(fun x => by cases x), (fun v' toks' t' x => by cases x)⟩
    · exact ⟨(fun x => by cases x), (fun v' toks' t' x => by cases x)⟩
  unfold turn
  cases scan2 txt v toks with
  | none => exact ⟨(fun x => by cases x), (fun v' toks' t' x => by cases x)⟩
  | some q =>
    dsimp only
    split_ifs
    · exact ⟨(fun x => by cases x), (fun v' toks' t' x => by cases x)⟩
    · exact ⟨(fun x => by cases x), (fun v' toks' t' x => by cases x)⟩
    · exact hs _ _
    · exact ⟨(fun x => by cases x), (fun v' toks' t' x => by cases x)⟩

theorem turns_safe (txt : Tok R → List Char) (whole : Int → R) (pos : R → Bool) : ∀ (n : Nat) (v : Vars R) (toks : List (Tok R))
    (t : Tab R) (s : Finset Int), Holds t s → t.par.length + n ≤ t.npar → turns txt whole pos n v toks t ≠ .oob := by
  intro n
  induction n with
  | zero => intro v toks t s _ _ x; cases x
  | succ n ih =>
    intro v toks t s g hl x
    obtain ⟨a, b⟩ := turn_safe txt whole pos v toks t s g (by omega)
    unfold turns at x
    cases ht : turn txt whole pos v toks t with
    | ok q =>
      obtain ⟨v1, k1, t1⟩ := q
      rw [ht] at x
      obtain ⟨s', g', e1, e2⟩ := b v1 k1 t1 ht
      exact ih v1 k1 t1 s' g' (by omega) x
    | minus _ => rw [ht] at x; cases x
    | fail => rw [ht] at x; cases x
    | ub => rw [ht] at x; cases x
    | oob => exact a ht
    | other => rw [ht] at x; cases x

/-- C100.  Whatever the file, reading it writes nothing outside the table. -/
theorem C100_file_safe (txt : Tok R → List Char) (whole : Int → R) (pos : R → Bool) (nl : Bool) : ∀ (fuel : Nat) (v : Vars R)
    (toks : List (Tok R)) (t : Tab R), read txt whole pos nl fuel v toks t ≠ .oob := by
  intro fuel
  induction fuel with
  | zero => intro v toks t x; cases x
  | succ n ih =>
    intro v toks t x
    cases toks with
    | nil => cases x
    | cons a r =>
      unfold read at x
      dsimp only at x
      split_ifs at x
      cases hs : section_ txt whole pos v r t with
      | ok q => obtain ⟨v1, r1, t1⟩ := q; rw [hs] at x; exact ih v1 r1 t1 x
      | minus _ => rw [hs] at x; cases x
      | fail => rw [hs] at x; cases x
      | ub => rw [hs] at x; cases x
      | other => rw [hs] at x; cases x
      | oob =>
        cases r with
        | nil => cases hs
        | cons b r =>
          cases b with
          | word _ => cases hs
          | real _ => cases hs
          | int k =>
            have hs : (if lparmax < k then Ret.fail else if k = 0 then .ok (v, r, t) else if k < 0 then .other
              else turns txt whole pos k.toNat v r ⟨k.toNat, []⟩) = .oob := hs
            split_ifs at hs
            exact turns_safe txt whole pos k.toNat v r ⟨k.toNat, []⟩ ∅ (holds_nil _) (by simp) hs

/-! ### Cases -/

/-- Two references announced; the second value for 5 wins, the call with reference -1 is refused, the table is full but 7 can be changed. -/
def calls : List (Op Int) := [.number 2, .set true 5 (1, 2, 3), .set true 5 (4, 4, 4), .set true (-1) (1, 1, 1), .set true 7 (1, 1, 1),
  .set true 7 (9, 9, 9)]

example : Fits posZ 0 ∅ calls ∧ run posZ ⟨0, []⟩ calls = some ⟨2, [⟨.tria, 5, (4, 4, 4)⟩, ⟨.tria, 7, (9, 9, 9)⟩]⟩ ∧
    wants posZ 0 (fun _ => none) calls 7 = some (9, 9, 9) := by
  refine ⟨?_, rfl, rfl⟩
  simp [calls, Fits, Valid, posZ]

example : run posZ ⟨0, []⟩ [.number 1, .set true 0 (1, 1, 1), .set true 1 (1, 1, 1)] = none :=
  C100_overflow_observed posZ 1 (by decide) (1, 1, 1) (by decide)

example : read (fun _ => []) id posZ true 5 start (write id (1, 2, 3) [4, 2, 4]) ⟨0, []⟩ =
    .ok ⟨2, [⟨.tria, 2, (1, 2, 3)⟩, ⟨.tria, 4, (1, 2, 3)⟩]⟩ := rfl

/-- Three lines announced, one there. -/
example : goesOn (read (fun _ => []) id posZ true 5 start
    [.word "Parameters".toList, .int 3, .int 2, .word "Triangle".toList, .real 1, .real 2, .real 3] ⟨0, []⟩) =
      some ⟨3, [⟨.tria, 2, (1, 2, 3)⟩]⟩ := rfl

example : AllTria posZ [⟨"Triangle".toList, .tria, 2, (1, 2, 3)⟩] := by
  intro e he
  rw [List.mem_singleton.mp he]
  exact ⟨⟨.inl ⟨rfl, .inr (by decide)⟩, by decide, by decide⟩, rfl⟩

end Mmg.ParS
