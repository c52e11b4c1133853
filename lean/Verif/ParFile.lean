/-
  C99. The file of local parameters: what is written, what is read back, and what goes wrong.
-/
import Verif.ParFileModel
import Mathlib.Tactic.Common

namespace Mmg.ParFile

variable {R : Type}

/-! ### The list of references -/

theorem walk_spec (v : Int) : ∀ (l : List Int) (c : Int), (c :: l).Pairwise (· < ·) → c ≤ v →
    (walk v c l).1.Pairwise (· < ·) ∧ (∀ x, x ∈ (walk v c l).1 ↔ x = v ∨ x ∈ c :: l) ∧
      (walk v c l).1.length = (c :: l).length + (if (walk v c l).2 then 1 else 0) := by
  intro l
  induction l with
  | nil =>
    intro c _ hc
    unfold walk
    by_cases e : v = c
    · rw [if_pos e]; subst e; simp
    · rw [if_neg e]
      refine ⟨?_, ?_, by simp⟩
      · simp; omega
      · intro x; simp; tauto
  | cons y ys ih =>
    intro c hp hc
    have hp' : (y :: ys).Pairwise (· < ·) := hp.of_cons
    have hcy : ∀ z ∈ y :: ys, c < z := (List.pairwise_cons.mp hp).1
    unfold walk
    by_cases h : y ≤ v
    · rw [if_pos h]
      obtain ⟨a, b, d⟩ := ih y hp' h
      refine ⟨?_, ?_, ?_⟩
      · show (c :: (walk v y ys).1).Pairwise _
        rw [List.pairwise_cons]
        refine ⟨?_, a⟩
        intro z hz
        rcases (b z).mp hz with e | e
        · have := hcy y (by simp); omega
        · exact hcy z e
      · intro x
        show x ∈ c :: (walk v y ys).1 ↔ _
        rw [List.mem_cons, b, List.mem_cons (a := x) (b := c)]
        tauto
      · show (c :: (walk v y ys).1).length = _ + (if (walk v y ys).2 then 1 else 0)
        rw [List.length_cons, d]
        simp only [List.length_cons]; omega
    · rw [if_neg h]
      by_cases e : v = c
      · rw [if_pos e]; subst e
        exact ⟨hp, fun x => by simp, by simp⟩
      · rw [if_neg e]
        refine ⟨?_, ?_, by simp⟩
        · show (c :: v :: y :: ys).Pairwise _
          rw [List.pairwise_cons, List.pairwise_cons]
          refine ⟨?_, ?_, hp'⟩
          · intro z hz
            rcases List.mem_cons.mp hz with e' | e'
            · omega
            · exact hcy z e'
          · intro z hz
            rcases List.mem_cons.mp hz with e' | e'
            · omega
            · have := (List.pairwise_cons.mp hp').1 z e'; omega
        · intro x
          show x ∈ c :: v :: y :: ys ↔ _
          simp only [List.mem_cons]; tauto

theorem add_spec (v : Int) (l : List Int) (hp : l.Pairwise (· < ·)) :
    (add v l).1.Pairwise (· < ·) ∧ (∀ x, x ∈ (add v l).1 ↔ x = v ∨ x ∈ l) ∧
      (add v l).1.length = l.length + (if (add v l).2 then 1 else 0) := by
  cases l with
  | nil => unfold add; simp
  | cons y ys =>
    have hadd : add v (y :: ys) = if v < y then (v :: y :: ys, true) else if v = y then (y :: ys, false) else walk v y ys := rfl
    rw [hadd]
    by_cases h : v < y
    · rw [if_pos h]
      refine ⟨?_, fun x => by simp, by simp⟩
      show (v :: y :: ys).Pairwise _
      rw [List.pairwise_cons]
      refine ⟨?_, hp⟩
      intro z hz
      rcases List.mem_cons.mp hz with e | e
      · omega
      · have := (List.pairwise_cons.mp hp).1 z e; omega
    · rw [if_neg h]
      by_cases e : v = y
      · rw [if_pos e]; subst e
        exact ⟨hp, fun x => by simp, by simp⟩
      · rw [if_neg e]
        exact walk_spec v ys y hp (by omega)

theorem count_fold (cut : Int → Int) : ∀ (refs : List Int) (l : List Int) (n : Nat), l.Pairwise (· < ·) → l.length = n →
    let q := refs.foldl (fun a r => let b := add (cut r) a.1; (b.1, if b.2 then a.2 + 1 else a.2)) (l, n)
    q.1.Pairwise (· < ·) ∧ (∀ x, x ∈ q.1 ↔ x ∈ l ∨ ∃ r ∈ refs, x = cut r) ∧ q.1.length = q.2 := by
  intro refs
  induction refs with
  | nil => intro l n hp hn; exact ⟨hp, fun x => by simp, hn⟩
  | cons r rs ih =>
    intro l n hp hn
    obtain ⟨a, b, c⟩ := add_spec (cut r) l hp
    have hlen : (add (cut r) l).1.length = if (add (cut r) l).2 then n + 1 else n := by
      rw [c, hn]; split_ifs <;> rfl
    obtain ⟨a', b', c'⟩ := ih (add (cut r) l).1 (if (add (cut r) l).2 then n + 1 else n) a hlen
    refine ⟨a', ?_, c'⟩
    intro x
    refine (b' x).trans ?_
    rw [b, List.exists_mem_cons_iff]
    tauto

/-- C99.  The list is sorted without repetition, holds exactly the references (0 when there is none), and the number is its length. -/
theorem C99_list (cut : Int → Int) (refs : List Int) :
    (count cut refs).1.Pairwise (· < ·) ∧ (refs ≠ [] → ∀ x, x ∈ (count cut refs).1 ↔ ∃ r ∈ refs, x = cut r) ∧
      (refs = [] → (count cut refs).1 = [cut 0]) ∧ (count cut refs).2 = (count cut refs).1.length := by
  cases refs with
  | nil => exact ⟨by simp [count, add], fun h => absurd rfl h, fun _ => rfl, rfl⟩
  | cons r rs =>
    obtain ⟨a, b, c⟩ := count_fold cut (r :: rs) [cut r] 1 (by simp) rfl
    refine ⟨a, fun _ x => ?_, fun h => (List.cons_ne_nil _ _ h).elim, c.symm⟩
    refine (b x).trans ?_
    rw [List.exists_mem_cons_iff]
    simp

example : count id [5, 3, 5, 9, 3, 4] = ([3, 4, 5, 9], 4) := by decide

example : count id [] = ([0], 1) := by decide

/-! ### What a file means -/

/-- A line of the file. -/
structure Ent (R : Type) where
  w : List Char
  kind : Kind
  ref : Int
  h : R × R × R

/-- The words of a line. -/
def Ent.toks (e : Ent R) : List (Tok R) := [.int e.ref, .word e.w, .real e.h.1, .real e.h.2.1, .real e.h.2.2]

/-- The line can be accepted. -/
structure Ent.Ok (pos : R → Bool) (e : Ent R) : Prop where
  kind : (e.kind = .tria ∧ (e.w.map Char.toLower = "triangles".toList ∨ e.w.map Char.toLower = "triangle".toList)) ∨
    (e.kind = .edge ∧ (e.w.map Char.toLower = "edges".toList ∨ e.w.map Char.toLower = "edge".toList))
  ref : 0 ≤ e.ref
  h : pos e.h.1 = true ∧ pos e.h.2.1 = true ∧ pos e.h.2.2 = true

/-- The values the table gives for a kind and a reference. -/
def Tab.get (t : Tab R) (k : Kind) (ref : Int) : Option (R × R × R) :=
  (t.par.find? fun p => decide (p.elt = k ∧ p.ref = ref)).map (·.h)

/-- The values the lines ask for: those of the last line with this kind and reference. -/
def asks (es : List (Ent R)) (k : Kind) (ref : Int) : Option (R × R × R) :=
  (es.reverse.find? fun e => decide (e.kind = k ∧ e.ref = ref)).map (·.h)

/-- A table as it should be. -/
structure Tab.Good (pos : R → Bool) (t : Tab R) : Prop where
  room : t.par.length ≤ t.npar
  most : (t.npar : Int) ≤ 200
  refs : ∀ p ∈ t.par, 0 ≤ p.ref
  vals : ∀ p ∈ t.par, pos p.h.1 = true ∧ pos p.h.2.1 = true ∧ pos p.h.2.2 = true
  once : t.par.Pairwise fun p q => ¬(p.elt = q.elt ∧ p.ref = q.ref)

theorem upd_length (k : Kind) (ref : Int) (h : R × R × R) (l : List (Par R)) : (upd k ref h l).length = l.length := by
  induction l with
  | nil => rfl
  | cons p ps ih => unfold upd; split_ifs <;> simp [ih]

theorem upd_keys (k : Kind) (ref : Int) (h : R × R × R) (l : List (Par R)) :
    (upd k ref h l).map (fun p => (p.elt, p.ref)) = l.map (fun p => (p.elt, p.ref)) := by
  induction l with
  | nil => rfl
  | cons p ps ih => unfold upd; split_ifs <;> simp [ih]

theorem upd_vals (k : Kind) (ref : Int) (h : R × R × R) (l : List (Par R)) :
    ∀ p ∈ upd k ref h l, p.h = h ∨ ∃ q ∈ l, p = q := by
  induction l with
  | nil => intro p hp; cases hp
  | cons p ps ih =>
    intro q hq
    unfold upd at hq
    split_ifs at hq with c
    · rcases List.mem_cons.mp hq with e | e
      · left; rw [e]
      · exact .inr ⟨q, List.mem_cons_of_mem _ e, rfl⟩
    · rcases List.mem_cons.mp hq with e | e
      · exact .inr ⟨p, by simp, e⟩
      · rcases ih q e with e' | ⟨q', m, e'⟩
        · exact .inl e'
        · exact .inr ⟨q', List.mem_cons_of_mem _ m, e'⟩

theorem upd_get (k : Kind) (ref : Int) (h : R × R × R) (l : List (Par R))
    (hl : l.any (fun p => decide (p.elt = k ∧ p.ref = ref)) = true) (k' : Kind) (ref' : Int) :
    ((upd k ref h l).find? fun p => decide (p.elt = k' ∧ p.ref = ref')).map (·.h) =
      if k = k' ∧ ref = ref' then some h else (l.find? fun p => decide (p.elt = k' ∧ p.ref = ref')).map (·.h) := by
  induction l with
  | nil => simp at hl
  | cons p ps ih =>
    unfold upd
    by_cases c : p.elt = k ∧ p.ref = ref
    · rw [if_pos c, List.find?_cons, List.find?_cons]
      obtain ⟨c1, c2⟩ := c
      by_cases d : k = k' ∧ ref = ref'
      · rw [if_pos d]
        have : decide (p.elt = k' ∧ p.ref = ref') = true := by rw [c1, c2]; exact decide_eq_true d
        simp only [this]; rfl
      · rw [if_neg d]
        have : decide (p.elt = k' ∧ p.ref = ref') = false := by rw [c1, c2]; exact decide_eq_false d
        simp only [this]
    · rw [if_neg c, List.find?_cons, List.find?_cons]
      have hl' : ps.any (fun p => decide (p.elt = k ∧ p.ref = ref)) = true := by
        rw [List.any_cons, decide_eq_false c, Bool.false_or] at hl; exact hl
      by_cases d : p.elt = k' ∧ p.ref = ref'
      · simp only [decide_eq_true d]
        rw [if_neg (fun e => c ⟨d.1.trans e.1.symm, d.2.trans e.2.symm⟩)]
      · simp only [decide_eq_false d]
        exact ih hl'

/-- What `MMG2D_Set_localParameter` does to a table. -/
theorem setLocal_get (pos : R → Bool) (k : Kind) (ref : Int) (h : R × R × R) (t t' : Tab R) (e : setLocal pos k ref h t = some t')
    (k' : Kind) (ref' : Int) : t'.get k' ref' = if k = k' ∧ ref = ref' then some h else t.get k' ref' := by
  unfold setLocal at e
  split_ifs at e with a b c d f g i
  · cases e
    exact upd_get k ref h t.par i k' ref'
  · cases e
    unfold Tab.get
    rw [List.find?_append]
    by_cases d' : k = k' ∧ ref = ref'
    · rw [if_pos d']
      obtain ⟨rfl, rfl⟩ := d'
      have : (t.par.find? fun p => decide (p.elt = k ∧ p.ref = ref)) = none := by
        rw [List.find?_eq_none]
        intro p hp hq
        exact i (List.any_eq_true.mpr ⟨p, hp, hq⟩)
      rw [this]
      simp
    · rw [if_neg d']
      cases t.par.find? fun p => decide (p.elt = k' ∧ p.ref = ref') with
      | none => simp [d']
      | some _ => rfl

theorem setLocal_good (pos : R → Bool) (k : Kind) (ref : Int) (h : R × R × R) (t t' : Tab R) (g : t.Good pos)
    (e : setLocal pos k ref h t = some t') : t'.Good pos ∧ t'.npar = t.npar ∧ t'.par.length ≤ t.par.length + 1 := by
  unfold setLocal at e
  split_ifs at e with a b c d f i j
  · cases e
    simp only [Bool.not_eq_true, Bool.not_eq_eq_eq_not, Bool.not_true, Bool.not_eq_false] at d f i
    have hk := upd_keys k ref h t.par
    refine ⟨⟨?_, g.most, ?_, ?_, ?_⟩, rfl, ?_⟩
    · show (upd k ref h t.par).length ≤ t.npar
      rw [upd_length]; exact g.room
    · intro p hp
      have : (p.elt, p.ref) ∈ t.par.map (fun p => (p.elt, p.ref)) := by
        rw [← hk]; exact List.mem_map_of_mem (f := fun p : Par R => (p.elt, p.ref)) hp
      obtain ⟨q, hq, e⟩ := List.mem_map.mp this
      have := g.refs q hq
      have e2 : q.ref = p.ref := congrArg Prod.snd e
      omega
    · intro p hp
      rcases upd_vals k ref h t.par p hp with e | ⟨q, hq, e⟩
      · rw [e]; exact ⟨d, f, i⟩
      · rw [e]; exact g.vals q hq
    · show (upd k ref h t.par).Pairwise _
      have h1 : (t.par.map (fun p => (p.elt, p.ref))).Pairwise (fun p q => ¬(p.1 = q.1 ∧ p.2 = q.2)) := by
        rw [List.pairwise_map]; exact g.once
      rw [← hk, List.pairwise_map] at h1
      exact h1
    · show (upd k ref h t.par).length ≤ _
      rw [upd_length]; omega
  · cases e
    simp only [Bool.not_eq_true, Bool.not_eq_eq_eq_not, Bool.not_true, Bool.not_eq_false] at d f i
    refine ⟨⟨?_, g.most, ?_, ?_, ?_⟩, rfl, by simp⟩
    · show (t.par ++ [_]).length ≤ t.npar
      rw [List.length_append, List.length_singleton]; omega
    · intro p hp
      rcases List.mem_append.mp hp with e | e
      · exact g.refs p e
      · rw [List.mem_singleton.mp e]; show 0 ≤ ref; omega
    · intro p hp
      rcases List.mem_append.mp hp with e | e
      · exact g.vals p e
      · rw [List.mem_singleton.mp e]; exact ⟨d, f, i⟩
    · show (t.par ++ [_]).Pairwise _
      rw [List.pairwise_append]
      refine ⟨g.once, by simp, ?_⟩
      intro p hp q hq hc
      rw [List.mem_singleton.mp hq] at hc
      exact j (List.any_eq_true.mpr ⟨p, hp, decide_eq_true hc⟩)

theorem setLocal_ok (pos : R → Bool) (k : Kind) (ref : Int) (h : R × R × R) (t : Tab R) (hl : t.par.length < t.npar) (hr : 0 ≤ ref)
    (hh : pos h.1 = true ∧ pos h.2.1 = true ∧ pos h.2.2 = true) : ∃ t', setLocal pos k ref h t = some t' := by
  unfold setLocal
  rw [if_neg (by omega), if_neg (by omega), if_neg (by omega), hh.1, hh.2.1, hh.2.2]
  simp only [Bool.not_true, Bool.false_eq_true, if_false]
  split_ifs <;> exact ⟨_, rfl⟩

/-! ### Reading lines -/

theorem kind_ok {pos : R → Bool} {e : Ent R} (h : e.Ok pos) : kind (e.w.map Char.toLower) = some e.kind := by
  unfold kind
  rcases h.kind with ⟨a, b⟩ | ⟨a, b⟩
  · rw [if_pos b, a]
  · rw [if_neg, if_pos b, a]
    rcases b with b | b <;> rw [b] <;> decide

theorem turn_ok (txt : Tok R → List Char) (whole : Int → R) (pos : R → Bool) (v : Vars R) (e : Ent R) (r : List (Tok R)) (t t' : Tab R)
    (he : e.Ok pos) (hs : setLocal pos e.kind e.ref e.h t = some t') :
    ∃ v', turn txt whole pos v (e.toks ++ r) t = .ok (v', r, t') := by
  refine ⟨⟨some e.ref, e.w.map Char.toLower, some e.h.1, some e.h.2.1, some e.h.2.2⟩, ?_⟩
  unfold turn
  have h2 : scan2 txt v (e.toks ++ r) =
      some (some 2, ⟨some e.ref, e.w, v.f1, v.f2, v.f3⟩, [.real e.h.1, .real e.h.2.1, .real e.h.2.2] ++ r) := rfl
  rw [h2]
  show (match kind (e.w.map Char.toLower) with
      | some k => store pos ⟨some e.ref, e.w.map Char.toLower, some e.h.1, some e.h.2.1, some e.h.2.2⟩ r t k
      | none => Res.fail) = _
  rw [kind_ok he]
  show (match setLocal pos e.kind e.ref (e.h.1, e.h.2.1, e.h.2.2) t with
    | some t => Res.ok (_, r, t)
    | none => .fail) = _
  have : (e.h.1, e.h.2.1, e.h.2.2) = e.h := rfl
  rw [this, hs]

theorem turns_ok (txt : Tok R → List Char) (whole : Int → R) (pos : R → Bool) (r : List (Tok R)) : ∀ (es : List (Ent R)) (v : Vars R)
    (t : Tab R), (∀ e ∈ es, e.Ok pos) → t.Good pos → t.par.length + es.length ≤ t.npar →
    ∃ v' t', turns txt whole pos es.length v (es.flatMap Ent.toks ++ r) t = .ok (v', r, t') ∧ t'.npar = t.npar ∧
      ∀ k ref, t'.get k ref = (asks es k ref).or (t.get k ref) := by
  intro es
  induction es with
  | nil => intro v t _ _ _; exact ⟨v, t, rfl, rfl, fun k ref => rfl⟩
  | cons e es ih =>
    intro v t h g hl
    have he := h e (by simp)
    obtain ⟨t1, h1⟩ := setLocal_ok pos e.kind e.ref e.h t (by simp at hl; omega) he.ref he.h
    obtain ⟨g1, n1, l1⟩ := setLocal_good pos _ _ _ t t1 g h1
    obtain ⟨v1, hv⟩ := turn_ok txt whole pos v e (es.flatMap Ent.toks ++ r) t t1 he h1
    obtain ⟨v2, t2, a, b, c⟩ := ih v1 t1 (fun x hx => h x (List.mem_cons_of_mem _ hx)) g1 (by simp at hl; omega)
    refine ⟨v2, t2, ?_, b.trans n1, ?_⟩
    · show turns txt whole pos (es.length + 1) v (List.flatMap Ent.toks (e :: es) ++ r) t = _
      rw [List.flatMap_cons, List.append_assoc]
      unfold turns
      rw [hv]
      exact a
    · intro k ref
      rw [c, setLocal_get pos _ _ _ t t1 h1]
      unfold asks
      rw [List.reverse_cons, List.find?_append]
      cases es.reverse.find? fun e => decide (e.kind = k ∧ e.ref = ref) with
      | some _ => rfl
      | none =>
        simp only [List.find?_cons, List.find?_nil, Option.none_or, Option.map_none]
        by_cases d : e.kind = k ∧ e.ref = ref
        · rw [if_pos d, decide_eq_true d]; rfl
        · rw [if_neg d, decide_eq_false d]; rfl

/-- What `read` does after a section. -/
def cont (txt : Tok R → List Char) (whole : Int → R) (pos : R → Bool) (nl : Bool) (fuel : Nat) :
    Res (Vars R × List (Tok R) × Tab R) → Res (Tab R)
  | .ok (v, r, t) => read txt whole pos nl fuel v r t
  | .fail => .fail
  | .ub => .ub
  | .other => .other

theorem read_cons (txt : Tok R → List Char) (whole : Int → R) (pos : R → Bool) (nl : Bool) (fuel : Nat) (v : Vars R) (a : Tok R)
    (r : List (Tok R)) (t : Tab R) : read txt whole pos nl (fuel + 1) v (a :: r) t =
      if r.isEmpty && !nl then .ok t
      else if (chars txt a).map Char.toLower = "lsreferences".toList ∨ (chars txt a).map Char.toLower = "lsbasereferences".toList then
        .other
      else if (chars txt a).map Char.toLower = "parameters".toList then
        cont txt whole pos nl fuel (section_ txt whole pos { v with data := (chars txt a).map Char.toLower } r t)
      else .fail := by
  show (if r.isEmpty && !nl then _ else _) = _
  split_ifs
  · rfl
  · rfl
  · cases section_ txt whole pos { v with data := (chars txt a).map Char.toLower } r t <;> rfl
  · rfl

theorem read_par (txt : Tok R → List Char) (whole : Int → R) (pos : R → Bool) (fuel : Nat) (v : Vars R) (w : List Char)
    (nl : Bool) (r : List (Tok R)) (t : Tab R) (hw : w.map Char.toLower = "parameters".toList) (hr : r ≠ [] ∨ nl = true) :
    read txt whole pos nl (fuel + 1) v (.word w :: r) t =
      cont txt whole pos nl fuel (section_ txt whole pos { v with data := w.map Char.toLower } r t) := by
  rw [read_cons]
  have hc : chars txt (.word w) = w := rfl
  rw [hc, if_neg, if_neg (by rw [hw]; decide), if_pos hw]
  rcases hr with h | h
  · cases r with
    | nil => exact absurd rfl h
    | cons _ _ => simp
  · simp [h]

/-- C99.  A file of at most 200 lines with references that are not negative and positive values is accepted; for every kind and reference the
table has the values of the last line about it, and nothing else. -/
theorem C99_reads (txt : Tok R → List Char) (whole : Int → R) (pos : R → Bool) (es : List (Ent R)) (w : List Char) (t : Tab R)
    (hw : w.map Char.toLower = "parameters".toList) (h0 : es ≠ []) (hn : es.length ≤ 200) (h : ∀ e ∈ es, e.Ok pos) (fuel : Nat) :
    ∃ t', read txt whole pos true (fuel + 2) start (.word w :: .int es.length :: es.flatMap Ent.toks) t = .ok t' ∧
      ∀ k ref, t'.get k ref = asks es k ref := by
  have hpos : 0 < es.length := List.length_pos_iff.mpr h0
  have g0 : (⟨es.length, []⟩ : Tab R).Good pos :=
    ⟨by simp, by show (es.length : Int) ≤ 200; omega, fun p hp => (List.not_mem_nil hp).elim,
      fun p hp => (List.not_mem_nil hp).elim, List.Pairwise.nil⟩
  obtain ⟨v', t', a, _, c⟩ := turns_ok txt whole pos [] es ⟨none, w.map Char.toLower, none, none, none⟩ ⟨es.length, []⟩ h g0 (by simp)
  rw [List.append_nil] at a
  refine ⟨t', ?_, fun k ref => ?_⟩
  · have hs : section_ txt whole pos ⟨none, w.map Char.toLower, none, none, none⟩ (.int es.length :: es.flatMap Ent.toks) t =
        .ok (v', [], t') := by
      unfold section_
      show (if lparmax < (es.length : Int) then _ else _) = _
      rw [if_neg (by unfold lparmax; omega), if_neg (by omega), if_neg (by omega)]
      exact a
    rw [read_par txt whole pos _ _ w _ _ t hw (.inr rfl)]
    show (cont txt whole pos true (fuel + 1) (section_ txt whole pos ⟨none, w.map Char.toLower, none, none, none⟩ _ t)) = _
    rw [hs]
    rfl
  · rw [c]
    cases asks es k ref <;> rfl

/-! ### The round trip -/

/-- The line written for a reference. -/
def ent (k : Kind) (h : R × R × R) (r : Int) : Ent R :=
  ⟨match k with | .edge => "Edge".toList | .tria => "Triangle".toList, k, r, h⟩

theorem ent_toks (k : Kind) (h : R × R × R) (l : List Int) : l.flatMap (line k h) = (l.map (ent k h)).flatMap Ent.toks := by
  induction l with
  | nil => rfl
  | cons r l ih => rw [List.flatMap_cons, ih]; rfl

/-- The references that are written: those of the mesh as `int`, or 0. -/
def written (cut : Int → Int) (refs : List Int) (r : Int) : Prop := (∃ x ∈ refs, r = cut x) ∨ (refs = [] ∧ r = cut 0)

theorem count_mem (cut : Int → Int) (refs : List Int) (r : Int) : r ∈ (count cut refs).1 ↔ written cut refs r := by
  obtain ⟨_, b, c, _⟩ := C99_list cut refs
  unfold written
  by_cases h : refs = []
  · rw [c h, h]; simp
  · rw [b h]; simp [h]

theorem asks_ents (h : R × R × R) (l m : List Int) (k : Kind) (ref : Int) :
    asks (l.map (ent .edge h) ++ m.map (ent .tria h)) k ref =
      if (k = .edge ∧ ref ∈ l) ∨ (k = .tria ∧ ref ∈ m) then some h else none := by
  unfold asks
  split_ifs with c
  · cases e : ((l.map (ent .edge h) ++ m.map (ent .tria h)).reverse.find? fun e => decide (e.kind = k ∧ e.ref = ref)) with
    | none =>
      exfalso
      rw [List.find?_eq_none] at e
      rcases c with ⟨a, b⟩ | ⟨a, b⟩
      · exact e (ent .edge h ref) (by simp only [List.mem_reverse, List.mem_append]; exact .inl (List.mem_map_of_mem b))
          (decide_eq_true ⟨a.symm, rfl⟩)
      · exact e (ent .tria h ref) (by simp only [List.mem_reverse, List.mem_append]; exact .inr (List.mem_map_of_mem b))
          (decide_eq_true ⟨a.symm, rfl⟩)
    | some x =>
      have hx := List.mem_of_find?_eq_some e
      simp only [List.mem_reverse, List.mem_append, List.mem_map] at hx
      rcases hx with ⟨_, _, rfl⟩ | ⟨_, _, rfl⟩ <;> rfl
  · rw [Option.map_eq_none_iff, List.find?_eq_none]
    intro x hx
    simp only [List.mem_reverse, List.mem_append, List.mem_map] at hx
    intro hd
    have hd := of_decide_eq_true hd
    rcases hx with ⟨r, hr, rfl⟩ | ⟨r, hr, rfl⟩
    · exact c (.inl ⟨hd.1.symm, by have : r = ref := hd.2; rwa [← this]⟩)
    · exact c (.inr ⟨hd.1.symm, by have : r = ref := hd.2; rwa [← this]⟩)

theorem write_eq (cut : Int → Int) (h : R × R × R) (edges trias : List Int) :
    write cut h edges trias = .word "parameters".toList ::
      .int ((((count cut edges).1.map (ent .edge h) ++ (count cut trias).1.map (ent .tria h)).length : Nat) : Int) ::
        ((count cut edges).1.map (ent .edge h) ++ (count cut trias).1.map (ent .tria h)).flatMap Ent.toks := by
  show [Tok.word "parameters".toList, .int ((count cut trias).2 + (count cut edges).2 : Nat)] ++
    (count cut edges).1.flatMap (line .edge h) ++ (count cut trias).1.flatMap (line .tria h) = _
  rw [ent_toks, ent_toks, List.flatMap_append, List.length_append, List.length_map, List.length_map, (C99_list cut edges).2.2.2,
    (C99_list cut trias).2.2.2, Nat.add_comm]
  rfl

/-- C99.  The file written by `-default`, read again, gives the sizes written to each reference of an edge and to each reference of a triangle
of the mesh, and to nothing else, when there are at most 200 of them, none is negative and the sizes are positive as written. -/
theorem C99_roundtrip (txt : Tok R → List Char) (whole : Int → R) (pos : R → Bool) (cut : Int → Int) (h : R × R × R)
    (edges trias : List Int) (t : Tab R) (hn : (count cut edges).1.length + (count cut trias).1.length ≤ 200)
    (he : ∀ r, written cut edges r → 0 ≤ r) (ht : ∀ r, written cut trias r → 0 ≤ r)
    (hh : pos h.1 = true ∧ pos h.2.1 = true ∧ pos h.2.2 = true) (fuel : Nat) :
    ∃ t', read txt whole pos true (fuel + 2) start (write cut h edges trias) t = .ok t' ∧
      (∀ ref, t'.get .edge ref = some h ↔ written cut edges ref) ∧ (∀ ref, t'.get .tria ref = some h ↔ written cut trias ref) ∧
      (∀ ref, t'.get .edge ref = none ↔ ¬written cut edges ref) ∧ (∀ ref, t'.get .tria ref = none ↔ ¬written cut trias ref) := by
  rw [write_eq]
  have h0 : (count cut edges).1.map (ent .edge h) ++ (count cut trias).1.map (ent .tria h) ≠ [] := by
    intro c
    have c := (List.append_eq_nil_iff.mp c).1
    have c := List.map_eq_nil_iff.mp c
    have : written cut edges (match edges with | [] => cut 0 | x :: _ => cut x) := by
      cases edges with
      | nil => exact .inr ⟨rfl, rfl⟩
      | cons x l => exact .inl ⟨x, by simp, rfl⟩
    rw [← count_mem, c] at this
    exact List.not_mem_nil this
  obtain ⟨t', a, b⟩ := C99_reads txt whole pos _ "parameters".toList t (by decide) h0 (by simpa using hn) (by
    intro e he'
    rcases List.mem_append.mp he' with m | m
    · obtain ⟨r, hr, rfl⟩ := List.mem_map.mp m
      exact ⟨.inr ⟨rfl, .inr (by show "Edge".toList.map Char.toLower = _; decide)⟩, he r ((count_mem _ _ _).mp hr), hh⟩
    · obtain ⟨r, hr, rfl⟩ := List.mem_map.mp m
      exact ⟨.inl ⟨rfl, .inr (by show "Triangle".toList.map Char.toLower = _; decide)⟩, ht r ((count_mem _ _ _).mp hr), hh⟩) fuel
  refine ⟨t', a, ?_, ?_, ?_, ?_⟩ <;> intro ref <;> rw [b, asks_ents] <;> simp [count_mem]

/-- C99 fails beyond 200 references: the file written is refused. -/
theorem C99_many_observed (txt : Tok R → List Char) (whole : Int → R) (pos : R → Bool) (cut : Int → Int) (h : R × R × R)
    (edges trias : List Int) (t : Tab R) (hn : 200 < (count cut edges).1.length + (count cut trias).1.length) (fuel : Nat) :
    read txt whole pos true (fuel + 1) start (write cut h edges trias) t = .fail := by
  rw [write_eq, read_par _ _ _ _ _ _ _ _ _ (by decide) (.inr rfl)]
  have : section_ txt whole pos { (start : Vars R) with data := ("parameters".toList).map Char.toLower }
      (.int ((((count cut edges).1.map (ent .edge h) ++ (count cut trias).1.map (ent .tria h)).length : Nat) : Int) ::
        ((count cut edges).1.map (ent .edge h) ++ (count cut trias).1.map (ent .tria h)).flatMap Ent.toks) t = .fail := by
    unfold section_
    show (if lparmax < _ then _ else _) = _
    rw [if_pos]
    rw [List.length_append, List.length_map, List.length_map]
    unfold lparmax; omega
  rw [this]; rfl

/-! ### Any file -/

theorem turn_good (txt : Tok R → List Char) (whole : Int → R) (pos : R → Bool) (v : Vars R) (toks : List (Tok R)) (t : Tab R)
    (g : t.Good pos) (v' : Vars R) (toks' : List (Tok R)) (t' : Tab R) (e : turn txt whole pos v toks t = .ok (v', toks', t')) :
    t'.Good pos := by
  unfold turn at e
  cases h2 : scan2 txt v toks with
  | none => rw [h2] at e; cases e
  | some q =>
    rw [h2] at e
    dsimp only at e
    generalize (if q.1 = some 0 then q else scan3 whole q.2.1 q.2.2) = r at e
    by_cases c : r.1 = some 0
    · rw [if_pos c] at e; cases e
    · rw [if_neg c] at e
      generalize ({ r.2.1 with data := r.2.1.data.map Char.toLower } : Vars R) = w at e
      cases hk : kind (r.2.1.data.map Char.toLower) with
      | none => rw [hk] at e; cases e
      | some k =>
        rw [hk] at e
        have e : store pos w r.2.2 t k = .ok (v', toks', t') := e
        unfold store at e
        split at e
        · rename_i n a b d _ _ _ _
          cases hs : setLocal pos k n (a, b, d) t with
          | none => rw [hs] at e; cases e
          | some t1 =>
            rw [hs] at e
            cases e
            exact (setLocal_good pos _ _ _ t t' g hs).1
        · cases e

theorem turns_good (txt : Tok R → List Char) (whole : Int → R) (pos : R → Bool) : ∀ (n : Nat) (v : Vars R) (toks : List (Tok R))
    (t : Tab R), t.Good pos → ∀ (v' : Vars R) (toks' : List (Tok R)) (t' : Tab R), turns txt whole pos n v toks t = .ok (v', toks', t') →
    t'.Good pos := by
  intro n
  induction n with
  | zero => intro v toks t g v' toks' t' e; cases e; exact g
  | succ n ih =>
    intro v toks t g v' toks' t' e
    unfold turns at e
    cases ht : turn txt whole pos v toks t with
    | ok a =>
      obtain ⟨v1, k1, t1⟩ := a
      rw [ht] at e
      exact ih v1 k1 t1 (turn_good txt whole pos v toks t g v1 k1 t1 ht) v' toks' t' e
    | fail => rw [ht] at e; cases e
    | ub => rw [ht] at e; cases e
    | other => rw [ht] at e; cases e

theorem section_good (txt : Tok R → List Char) (whole : Int → R) (pos : R → Bool) (v : Vars R) (toks : List (Tok R)) (t : Tab R)
    (g : t.Good pos) (v' : Vars R) (toks' : List (Tok R)) (t' : Tab R) (e : section_ txt whole pos v toks t = .ok (v', toks', t')) :
    t'.Good pos := by
  cases toks with
  | nil => cases e
  | cons a r =>
    cases a with
    | word _ => cases e
    | real _ => cases e
    | int n =>
      have e : (if lparmax < n then Res.fail else if n = 0 then .ok (v, r, t) else if n < 0 then .other
        else turns txt whole pos n.toNat v r ⟨n.toNat, []⟩) = .ok (v', toks', t') := e
      split_ifs at e with a b c
      · cases e; exact g
      · refine turns_good txt whole pos _ _ _ _ ?_ _ _ _ e
        unfold lparmax at a
        exact ⟨by simp, by show (n.toNat : Int) ≤ 200; omega, fun p hp => (List.not_mem_nil hp).elim,
          fun p hp => (List.not_mem_nil hp).elim, List.Pairwise.nil⟩

/-- C99.  Whatever the file, an accepted table has at most 200 entries, no negative reference, positive sizes only, and at most one entry for
each kind and reference. -/
theorem C99_table (txt : Tok R → List Char) (whole : Int → R) (pos : R → Bool) (nl : Bool) : ∀ (fuel : Nat) (v : Vars R)
    (toks : List (Tok R)) (t : Tab R), t.Good pos → ∀ t', read txt whole pos nl fuel v toks t = .ok t' → t'.Good pos := by
  intro fuel
  induction fuel with
  | zero => intro v toks t _ t' e; cases e
  | succ n ih =>
    intro v toks t g t' e
    cases toks with
    | nil => cases e; exact g
    | cons a r =>
      rw [read_cons] at e
      split_ifs at e
      · cases e; exact g
      · cases hs : section_ txt whole pos { v with data := (chars txt a).map Char.toLower } r t with
        | ok q =>
          obtain ⟨v1, r1, t1⟩ := q
          rw [hs] at e
          exact ih v1 r1 t1 (section_good txt whole pos _ _ t g v1 r1 t1 hs) t' e
        | fail => rw [hs] at e; cases e
        | ub => rw [hs] at e; cases e
        | other => rw [hs] at e; cases e

/-- C99.  A file with a negative reference in it is refused. -/
theorem C99_negative (txt : Tok R → List Char) (whole : Int → R) (pos : R → Bool) (w : List Char) (t : Tab R)
    (hw : w.map Char.toLower = "parameters".toList) (es : List (Ent R)) (e : Ent R) (rest : List (Ent R)) (h : ∀ x ∈ es, x.Ok pos)
    (hn : (es ++ e :: rest).length ≤ 200) (he : e.ref < 0) (fuel : Nat) :
    read txt whole pos true (fuel + 1) start
      (.word w :: .int (es ++ e :: rest).length :: (es ++ e :: rest).flatMap Ent.toks) t = .fail := by
  have hlen : (es ++ e :: rest).length = es.length + (rest.length + 1) := by simp
  rw [read_par _ _ _ _ _ _ _ _ _ hw (.inr rfl)]
  have turns_add : ∀ (n m : Nat) (v : Vars R) (k : List (Tok R)) (t : Tab R) (v1 : Vars R) (k1 : List (Tok R)) (t1 : Tab R),
      turns txt whole pos n v k t = .ok (v1, k1, t1) → turns txt whole pos (n + m) v k t = turns txt whole pos m v1 k1 t1 := by
    intro n m
    induction n with
    | zero => intro v k t v1 k1 t1 e; cases e; rw [Nat.zero_add]
    | succ n ih =>
      intro v k t v1 k1 t1 e
      rw [Nat.succ_add]
      unfold turns at e
      cases ht : turn txt whole pos v k t with
      | ok a =>
        obtain ⟨v2, k2, t2⟩ := a
        rw [ht] at e
        show (match turn txt whole pos v k t with
          | .ok (v, toks, t) => turns txt whole pos (n + m) v toks t
          | .fail => .fail
          | .ub => .ub
          | .other => .other) = _
        rw [ht]
        exact ih v2 k2 t2 v1 k1 t1 e
      | fail => rw [ht] at e; cases e
      | ub => rw [ht] at e; cases e
      | other => rw [ht] at e; cases e
  have hs : section_ txt whole pos { (start : Vars R) with data := w.map Char.toLower }
      (.int (es ++ e :: rest).length :: (es ++ e :: rest).flatMap Ent.toks) t = .fail := by
    unfold section_
    show (if lparmax < _ then _ else _) = _
    rw [if_neg (by unfold lparmax; omega), if_neg (by omega), if_neg (by omega)]
    have g0 : (⟨(es ++ e :: rest).length, []⟩ : Tab R).Good pos :=
      ⟨by simp, by show ((es ++ e :: rest).length : Int) ≤ 200; omega, fun p hp => (List.not_mem_nil hp).elim,
        fun p hp => (List.not_mem_nil hp).elim, List.Pairwise.nil⟩
    obtain ⟨v1, t1, a, _, _⟩ := turns_ok txt whole pos ((e :: rest).flatMap Ent.toks) es
      { (start : Vars R) with data := w.map Char.toLower } ⟨(es ++ e :: rest).length, []⟩ h g0 (by simp)
    rw [Int.toNat_natCast, List.flatMap_append]
    have := turns_add es.length (rest.length + 1) _ _ _ _ _ _ a
    rw [← hlen] at this
    rw [this]
    unfold turns
    have ht : turn txt whole pos v1 ((e :: rest).flatMap Ent.toks) t1 = .fail := by
      rw [List.flatMap_cons]
      show (match kind (e.w.map Char.toLower) with
        | some k => store pos ⟨some e.ref, e.w.map Char.toLower, some e.h.1, some e.h.2.1, some e.h.2.2⟩ (rest.flatMap Ent.toks) t1 k
        | none => Res.fail) = _
      cases kind (e.w.map Char.toLower) with
      | none => rfl
      | some k =>
        have : setLocal pos k e.ref (e.h.1, e.h.2.1, e.h.2.2) t1 = none := by
          unfold setLocal
          split_ifs <;> rfl
        show (match setLocal pos k e.ref (e.h.1, e.h.2.1, e.h.2.2) t1 with
          | some t => Res.ok (_, _, t)
          | none => .fail) = _
        rw [this]
    rw [ht]
  rw [hs]; rfl

/-! ### What goes wrong -/

/-- C99 fails for negative references: a mesh with one edge, of reference -3, and one triangle, of reference 1. -/
theorem C99_negative_observed :
    read (fun _ => []) (fun n => n) (fun n : Int => decide (0 < n)) true 5 start (write id (1, 2, 3) [-3] [1]) ⟨0, []⟩ = .fail := rfl

/-- C99 fails for a file that ends after `parameters`: the number of parameters is used without having been read. -/
theorem C99_cut_observed (txt : Tok R → List Char) (whole : Int → R) (pos : R → Bool) (t : Tab R) (fuel : Nat) :
    read txt whole pos true (fuel + 1) start [.word "Parameters".toList] t = .ub := by
  rw [read_par _ _ _ _ _ _ _ _ _ (by decide) (.inr rfl)]; rfl

/-- C99 fails for a line with two values missing: it is accepted, with the values of the line before. -/
theorem C99_stale_observed (txt : Tok R → List Char) (whole : Int → R) (pos : R → Bool) (a b c d : R) (nl : Bool)
    (h : pos a = true ∧ pos b = true ∧ pos c = true ∧ pos d = true) (t : Tab R) :
    ∃ t', read txt whole pos nl 5 start [.word "Parameters".toList, .int 2, .int 1, .word "Edge".toList, .real a, .real b, .real c,
        .int 2, .word "Edge".toList, .real d] t = .ok t' ∧ t'.get .edge 2 = some (d, b, c) := by
  refine ⟨⟨2, [⟨.edge, 1, (a, b, c)⟩, ⟨.edge, 2, (d, b, c)⟩]⟩, ?_, rfl⟩
  rw [read_par _ _ _ _ _ _ _ _ _ (by decide) (.inl (by simp))]
  have h1 : setLocal pos .edge 1 (a, b, c) ⟨2, []⟩ = some ⟨2, [⟨.edge, 1, (a, b, c)⟩]⟩ := by
    simp [setLocal, h.1, h.2.1, h.2.2.1]
  have h2 : setLocal pos .edge 2 (d, b, c) ⟨2, [⟨.edge, 1, (a, b, c)⟩]⟩ =
      some ⟨2, [⟨.edge, 1, (a, b, c)⟩, ⟨.edge, 2, (d, b, c)⟩]⟩ := by
    simp [setLocal, h.2.2.2, h.2.1, h.2.2.1]
  have t1 : turn txt whole pos ⟨none, "parameters".toList, none, none, none⟩ [.int 1, .word "Edge".toList, .real a, .real b, .real c,
      .int 2, .word "Edge".toList, .real d] ⟨2, []⟩ =
      .ok (⟨some 1, "edge".toList, some a, some b, some c⟩, [.int 2, .word "Edge".toList, .real d], ⟨2, [⟨.edge, 1, (a, b, c)⟩]⟩) := by
    show (match setLocal pos .edge 1 (a, b, c) ⟨2, []⟩ with
      | some t => Res.ok (_, _, t)
      | none => .fail) = _
    rw [h1]; rfl
  have t2 : turn txt whole pos ⟨some 1, "edge".toList, some a, some b, some c⟩ [.int 2, .word "Edge".toList, .real d]
      ⟨2, [⟨.edge, 1, (a, b, c)⟩]⟩ =
      .ok (⟨some 2, "edge".toList, some d, some b, some c⟩, [], ⟨2, [⟨.edge, 1, (a, b, c)⟩, ⟨.edge, 2, (d, b, c)⟩]⟩) := by
    show (match setLocal pos .edge 2 (d, b, c) ⟨2, [⟨.edge, 1, (a, b, c)⟩]⟩ with
      | some t => Res.ok (_, _, t)
      | none => .fail) = _
    rw [h2]; rfl
  have hs : section_ txt whole pos ⟨none, "parameters".toList, none, none, none⟩ [.int 2, .int 1, .word "Edge".toList, .real a,
      .real b, .real c, .int 2, .word "Edge".toList, .real d] t =
      .ok (⟨some 2, "edge".toList, some d, some b, some c⟩, [], ⟨2, [⟨.edge, 1, (a, b, c)⟩, ⟨.edge, 2, (d, b, c)⟩]⟩) := by
    show turns txt whole pos 2 ⟨none, "parameters".toList, none, none, none⟩ [.int 1, .word "Edge".toList, .real a, .real b, .real c,
      .int 2, .word "Edge".toList, .real d] ⟨2, []⟩ = _
    unfold turns
    rw [t1]
    show (match turn txt whole pos ⟨some 1, "edge".toList, some a, some b, some c⟩ [.int 2, .word "Edge".toList, .real d]
      ⟨2, [⟨.edge, 1, (a, b, c)⟩]⟩ with
      | .ok (v, toks, t) => turns txt whole pos 0 v toks t
      | .fail => .fail
      | .ub => .ub
      | .other => .other) = _
    rw [t2]; rfl
  show cont txt whole pos nl 4 (section_ txt whole pos ⟨none, "parameters".toList, none, none, none⟩ [.int 2, .int 1,
    .word "Edge".toList, .real a, .real b, .real c, .int 2, .word "Edge".toList, .real d] t) = _
  rw [hs]; rfl

/-- A first line without values reads variables that have none. -/
theorem C99_unset_observed (txt : Tok R → List Char) (whole : Int → R) (pos : R → Bool) (a : R) (t : Tab R) :
    read txt whole pos true 5 start [.word "Parameters".toList, .int 1, .int 1, .word "Edge".toList, .real a] t = .ub := rfl

/-- A file without space after its only word is accepted whatever the word is. -/
theorem C99_last_observed (txt : Tok R → List Char) (whole : Int → R) (pos : R → Bool) (v : Vars R) (a : Tok R) (t : Tab R) (fuel : Nat) :
    read txt whole pos false (fuel + 1) v [a] t = .ok t := by
  rw [read_cons]; rfl

/-! ### Cases -/

/-- Positive numbers as texts. -/
def posZ (n : Int) : Bool := decide (0 < n)

example : write id ((1 : Int), 2, 3) [4, 2, 4] [7] =
    [.word "parameters".toList, .int 3, .int 2, .word "Edge".toList, .real 1, .real 2, .real 3,
      .int 4, .word "Edge".toList, .real 1, .real 2, .real 3, .int 7, .word "Triangle".toList, .real 1, .real 2, .real 3] := rfl

example : read (fun _ => []) id posZ true 5 start (write id (1, 2, 3) [4, 2, 4] [7]) ⟨0, []⟩ =
    .ok ⟨3, [⟨.edge, 2, (1, 2, 3)⟩, ⟨.edge, 4, (1, 2, 3)⟩, ⟨.tria, 7, (1, 2, 3)⟩]⟩ := rfl

example : ∃ t', read (fun _ => []) id posZ true 5 start (write id (1, 2, 3) [4, 2, 4] []) ⟨0, []⟩ = .ok t' ∧
    t'.get .tria 0 = some (1, 2, 3) ∧ t'.get .edge 3 = none := by
  obtain ⟨t', a, _, c, d, _⟩ := C99_roundtrip (fun _ => []) id posZ id ((1 : Int), 2, 3) [4, 2, 4] [] ⟨0, []⟩ (by decide)
    (by intro r h; rcases h with ⟨x, hx, rfl⟩ | ⟨h, _⟩
        · simp at hx; rcases hx with rfl | rfl | rfl <;> decide
        · cases h)
    (by intro r h; rcases h with ⟨x, hx, _⟩ | ⟨_, rfl⟩
        · cases hx
        · decide)
    (by decide) 3
  refine ⟨t', a, (c 0).mpr (.inr ⟨rfl, rfl⟩), (d 3).mpr ?_⟩
  rintro (⟨x, hx, e⟩ | ⟨h, _⟩)
  · simp at hx; rcases hx with rfl | rfl | rfl <;> simp at e
  · cases h

example : read (fun _ => []) id posZ true 5 start
    (.word "PARAMETERS".toList :: .int 2 :: [(⟨"Edges".toList, .edge, 1, (5, 6, 7)⟩ : Ent Int), ⟨"edge".toList, .edge, 1, (8, 8, 8)⟩].flatMap
      Ent.toks) ⟨0, []⟩ = .ok ⟨2, [⟨.edge, 1, (8, 8, 8)⟩]⟩ := rfl

example : (⟨2, [⟨.edge, 1, (8, 8, 8)⟩]⟩ : Tab Int).Good posZ :=
  C99_table (fun _ => []) id posZ true 5 start
    (.word "PARAMETERS".toList :: .int 2 :: [(⟨"Edges".toList, .edge, 1, (5, 6, 7)⟩ : Ent Int), ⟨"edge".toList, .edge, 1, (8, 8, 8)⟩].flatMap
      Ent.toks) ⟨0, []⟩ ⟨by decide, by decide, by simp, by simp, List.Pairwise.nil⟩ _ rfl

/-- A mesh whose edges have 200 references and whose triangles have one. -/
example : read (fun _ => []) id posZ true 5 start (write id (1, 2, 3) ((List.range 200).map Int.ofNat) [7]) ⟨0, []⟩ = .fail :=
  C99_many_observed (fun _ => []) id posZ id (1, 2, 3) _ _ ⟨0, []⟩ (by decide +kernel) 4

example : read (fun _ => []) id posZ true 5 start (.word "parameters".toList :: .int 2 ::
    [(⟨"Edge".toList, .edge, 1, (5, 6, 7)⟩ : Ent Int), ⟨"Edge".toList, .edge, -1, (8, 8, 8)⟩].flatMap Ent.toks) ⟨0, []⟩ = .fail :=
  C99_negative (fun _ => []) id posZ "parameters".toList ⟨0, []⟩ (by decide) [⟨"Edge".toList, .edge, 1, (5, 6, 7)⟩]
    ⟨"Edge".toList, .edge, -1, (8, 8, 8)⟩ [] (by
      intro x hx
      rw [List.mem_singleton.mp hx]
      exact ⟨.inr ⟨rfl, .inr (by decide)⟩, by decide, by decide⟩) (by decide) (by decide) 4

end Mmg.ParFile
