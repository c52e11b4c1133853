/-
  Gluing of faces by means of a table of edges: the writes in the adjacency as a list of events.
-/
import Verif.DeloneModel
import Mathlib.Data.Finset.Card
import Mathlib.Data.Finset.Image
import Mathlib.Data.List.Nodup

namespace Mmg.Delone

open Mmg.Split3 Mmg.Swap23 Mmg.Shell Mmg.Hash

abbrev Key := Nat × Nat × Nat

/-- Write of a link, or search of an edge for a face. The face `i` of `k` is `4*k+i`. -/
inductive Ev
  | put (x v : Nat)
  | dart (κ : Key) (x : Nat)

/-- The face an event is about. -/
def Ev.at : Ev → Nat
  | .put x _ => x
  | .dart _ x => x

/-- Table of the edges as a function, and the links. -/
structure GSt where
  M : Key → Option Nat
  B : Nat → Nat

def ev (s : GSt) : Ev → GSt
  | .put x v => ⟨s.M, Swap23.upd s.B x v⟩
  | .dart κ x =>
    match s.M κ with
    | some y => ⟨s.M, Swap23.upd (Swap23.upd s.B x y) y x⟩
    | none => ⟨Hash.upd s.M κ x, s.B⟩

def run (s : GSt) (es : List Ev) : GSt := es.foldl ev s

theorem run_append (s : GSt) (es fs : List Ev) : run s (es ++ fs) = run (run s es) fs := by
  simp [run, List.foldl_append]

/-- The edges seen so far. -/
def keys (es : List Ev) : List Key := es.filterMap fun e => match e with
  | .put _ _ => none | .dart κ _ => some κ

theorem keys_append (es fs : List Ev) : keys (es ++ fs) = keys es ++ keys fs := by
  simp [keys, List.filterMap_append]

theorem mem_keys {es : List Ev} {κ : Key} : κ ∈ keys es ↔ ∃ x, Ev.dart κ x ∈ es := by
  unfold keys
  rw [List.mem_filterMap]
  constructor
  · rintro ⟨e, he, h⟩
    cases e with
    | put x v => cases h
    | dart κ' x => cases h; exact ⟨x, he⟩
  · rintro ⟨x, hx⟩; exact ⟨_, hx, rfl⟩

/-- Each face appears once, an edge at most twice. -/
structure EvOK (es : List Ev) : Prop where
  nd : (es.map Ev.at).Nodup
  two : ∀ κ x y z, Ev.dart κ x ∈ es → Ev.dart κ y ∈ es → Ev.dart κ z ∈ es → x = y ∨ y = z ∨ x = z

/-- What the events have done. -/
structure Ran (B0 : Nat → Nat) (es : List Ev) (s : GSt) : Prop where
  put : ∀ x v, Ev.put x v ∈ es → s.B x = v
  pair : ∀ κ x y, Ev.dart κ x ∈ es → Ev.dart κ y ∈ es → x ≠ y → s.B x = y
  rest : ∀ x, x ∉ es.map Ev.at → s.B x = B0 x
  some : ∀ κ x, s.M κ = some x → Ev.dart κ x ∈ es
  none : ∀ κ, s.M κ = none → ∀ x, Ev.dart κ x ∉ es

theorem run_spec {B0 : Nat → Nat} (es : List Ev) (h : EvOK es) :
    Ran B0 es (run ⟨fun _ => none, B0⟩ es) := by
  induction es using List.reverseRecOn with
  | nil =>
    exact ⟨fun _ _ h => absurd h List.not_mem_nil, fun _ _ _ h => absurd h List.not_mem_nil,
      fun _ _ => rfl, (fun _ _ h => by cases h), fun _ _ _ h => absurd h List.not_mem_nil⟩
  | append_singleton es e ih =>
    have hnd := h.nd
    rw [List.map_append, List.nodup_append] at hnd
    obtain ⟨nd1, _, dj⟩ := hnd
    have hfresh : e.at ∉ es.map Ev.at := fun hc => dj _ hc e.at (by simp) rfl
    have ih := ih ⟨nd1, fun κ x y z a b c => h.two κ x y z (List.mem_append_left _ a)
      (List.mem_append_left _ b) (List.mem_append_left _ c)⟩
    rw [run_append]
    generalize run ⟨fun _ => none, B0⟩ es = s at ih
    have hone : run s [e] = ev s e := rfl
    rw [hone]
    have at_mem : ∀ {e' : Ev}, e' ∈ es → e'.at ≠ e.at := fun {e'} he' hc =>
      hfresh (hc ▸ List.mem_map_of_mem he')
    cases e with
    | put x v =>
      refine ⟨?_, ?_, ?_, ?_, ?_⟩
      · intro x' v' hm
        rcases List.mem_append.1 hm with hm | hm
        · have : x' ≠ x := at_mem hm
          simp only [ev, Swap23.upd, if_neg this]
          exact ih.put _ _ hm
        · cases List.mem_singleton.1 hm
          simp [ev, Swap23.upd]
      · intro κ x' y' h1 h2 hne
        have h1 : Ev.dart κ x' ∈ es := (List.mem_append.1 h1).resolve_right fun h => by
          cases List.mem_singleton.1 h
        have h2 : Ev.dart κ y' ∈ es := (List.mem_append.1 h2).resolve_right fun h => by
          cases List.mem_singleton.1 h
        have : x' ≠ x := at_mem h1
        simp only [ev, Swap23.upd, if_neg this]
        exact ih.pair _ _ _ h1 h2 hne
      · intro x' hx
        rw [List.map_append, List.mem_append, not_or] at hx
        have : x' ≠ x := fun hc => hx.2 (by simp [Ev.at, hc])
        simp only [ev, Swap23.upd, if_neg this]
        exact ih.rest _ hx.1
      · intro κ x' hm
        exact List.mem_append_left _ (ih.some _ _ hm)
      · intro κ hm x' hc
        refine (List.mem_append.1 hc).elim (ih.none _ hm _) fun h => by
          cases List.mem_singleton.1 h
    | dart κ x =>
      cases hM : s.M κ with
      | none =>
        simp only [ev, hM]
        refine ⟨?_, ?_, ?_, ?_, ?_⟩
        · intro x' v' hm
          refine (List.mem_append.1 hm).elim (ih.put _ _) fun h => by cases List.mem_singleton.1 h
        · intro κ' x' y' h1 h2 hne
          rcases List.mem_append.1 h1 with h1 | h1 <;> rcases List.mem_append.1 h2 with h2 | h2
          · exact ih.pair _ _ _ h1 h2 hne
          · cases List.mem_singleton.1 h2; exact absurd h1 (ih.none _ hM _)
          · cases List.mem_singleton.1 h1; exact absurd h2 (ih.none _ hM _)
          · cases List.mem_singleton.1 h1; cases List.mem_singleton.1 h2; exact absurd rfl hne
        · intro x' hx
          rw [List.map_append, List.mem_append, not_or] at hx
          exact ih.rest _ hx.1
        · intro κ' x' hm
          simp only [Hash.upd] at hm
          by_cases hk : κ' = κ
          · rw [if_pos hk] at hm; cases hm; subst hk; simp
          · rw [if_neg hk] at hm; exact List.mem_append_left _ (ih.some _ _ hm)
        · intro κ' hm x' hc
          simp only [Hash.upd] at hm
          by_cases hk : κ' = κ
          · rw [if_pos hk] at hm; cases hm
          · rw [if_neg hk] at hm
            refine (List.mem_append.1 hc).elim (ih.none _ hm _) fun h => ?_
            cases List.mem_singleton.1 h; exact hk rfl
      | some y =>
        simp only [ev, hM]
        have hy := ih.some _ _ hM
        have hyx : y ≠ x := at_mem hy
        refine ⟨?_, ?_, ?_, ?_, ?_⟩
        · intro x' v' hm
          have hm : Ev.put x' v' ∈ es := (List.mem_append.1 hm).resolve_right fun h => by
            cases List.mem_singleton.1 h
          have h1 : x' ≠ x := at_mem hm
          have h2 : x' ≠ y := by
            intro hc
            have := List.inj_on_of_nodup_map nd1 hm hy (by simpa [Ev.at] using hc)
            cases this
          simp only [Swap23.upd, if_neg h1, if_neg h2]
          exact ih.put _ _ hm
        · have old : ∀ x', Ev.dart κ x' ∈ es → x' = y := by
            intro x' hx'
            have hx'x : x' ≠ x := at_mem hx'
            rcases h.two κ x' y x (List.mem_append_left _ hx') (List.mem_append_left _ hy)
              (by simp) with h | h | h
            · exact h
            · exact absurd h hyx
            · exact absurd h hx'x
          intro κ' x' y' h1 h2 hne
          rcases List.mem_append.1 h1 with h1 | h1 <;> rcases List.mem_append.1 h2 with h2 | h2
          · have hx'x : x' ≠ x := at_mem h1
            have hx'y : x' ≠ y := by
              intro hc
              have := List.inj_on_of_nodup_map nd1 h1 hy (by simpa [Ev.at] using hc)
              cases this
              have := old _ h2
              exact hne this.symm
            simp only [Swap23.upd, if_neg hx'x, if_neg hx'y]
            exact ih.pair _ _ _ h1 h2 hne
          · cases List.mem_singleton.1 h2
            have := old _ h1
            simp [Swap23.upd, this]
          · cases List.mem_singleton.1 h1
            have := old _ h2
            simp [Swap23.upd, hyx.symm, this]
          · cases List.mem_singleton.1 h1; cases List.mem_singleton.1 h2; exact absurd rfl hne
        · intro x' hx
          rw [List.map_append, List.mem_append, not_or] at hx
          have h1 : x' ≠ x := fun hc => hx.2 (by simp [Ev.at, hc])
          have h2 : x' ≠ y := fun hc => hx.1 (by rw [hc]; exact List.mem_map_of_mem hy)
          simp only [Swap23.upd, if_neg h1, if_neg h2]
          exact ih.rest _ hx.1
        · intro κ' x' hm
          exact List.mem_append_left _ (ih.some _ _ hm)
        · intro κ' hm x' hc
          refine (List.mem_append.1 hc).elim (ih.none _ hm _) fun h => ?_
          cases List.mem_singleton.1 h
          rw [hM] at hm; cases hm

/-- The table holds the edges seen so far, whatever the number of faces around them. -/
theorem run_M (s : GSt) (es : List Ev) (κ : Key) :
    (run s es).M κ = none ↔ s.M κ = none ∧ κ ∉ keys es := by
  induction es generalizing s with
  | nil => simp [run, keys]
  | cons e es ih =>
    rw [show run s (e :: es) = run (ev s e) es from rfl, ih]
    cases e with
    | put x v => simp [ev, keys]
    | dart κ' x =>
      have hk : keys (Ev.dart κ' x :: es) = κ' :: keys es := rfl
      rw [hk, List.mem_cons, not_or]
      cases hM : s.M κ' with
      | none =>
        simp only [ev, hM, Hash.upd]
        by_cases h : κ = κ'
        · subst h; simp
        · simp [h]
      | some y =>
        simp only [ev, hM]
        by_cases h : κ = κ'
        · subst h; simp [hM]
        · simp [h]

/-! ### The table of the model -/

/-- The links as a function of the faces. -/
def cells (A : Nat → Nat) (x : Nat) : Nat := link A (x / 4) (x % 4)

theorem cells_set {A : Nat → Nat} {k i v : Nat} (hk : 1 ≤ k) (hi : i < 4) {x : Nat} (hx : 4 ≤ x) :
    cells (setAt A (adjIdx k i) v) x = Swap23.upd (cells A) (4 * k + i) v x := by
  unfold cells
  rw [link_set hk (by omega) hi (Nat.mod_lt _ (by decide))]
  simp only [Swap23.upd]
  by_cases h : x = 4 * k + i
  · rw [if_pos h, if_pos (by omega)]
  · rw [if_neg h, if_neg (by omega)]

/-- The table and the links of the model agree with the abstract ones; `sz` is the size the table
was created for and `es` the events so far. -/
structure Glue (sz : Nat) (es : List Ev) (s : GSt) (h : Hash) (A : Nat → Nat) : Prop where
  inv : Inv false h s.M
  siz : h.siz = sz + 1
  max : h.max = 3 * sz + 2
  nxt : h.nxt ≤ sz + 1 + (keys es).toFinset.card
  cell : ∀ x, 4 ≤ x → cells A x = s.B x
  none : ∀ κ, s.M κ = none ↔ κ ∉ keys es

theorem card_snoc {l : List Key} {κ : Key} (h : κ ∉ l) :
    (l ++ [κ]).toFinset.card = l.toFinset.card + 1 := by
  rw [List.toFinset_append, show [κ].toFinset = {κ} by simp, Finset.union_comm,
    ← Finset.insert_eq, Finset.card_insert_of_notMem (by simpa using h)]

theorem card_snoc_le {l : List Key} {κ : Key} :
    l.toFinset.card ≤ (l ++ [κ]).toFinset.card := by
  apply Finset.card_le_card
  intro x hx
  simp only [List.mem_toFinset, List.mem_append] at hx ⊢
  exact .inl hx

def keyOf (a b : Nat) : Key := (Nat.min a b, Nat.max a b, 0)

/-- One search in the table, while there is room. -/
theorem hash_spec {sz : Nat} {es : List Ev} {s : GSt} {h : Hash} {A : Nat → Nat} (g : Option Nat)
    (G : Glue sz es s h A) {iel i a b : Nat} (hk : 1 ≤ iel) (hi : i < 4) (ha : a ≠ 0) (hb : b ≠ 0)
    (hpos : ∀ κ y, s.M κ = some y → 4 ≤ y)
    (hroom : (keys (es ++ [Ev.dart (keyOf a b) (4 * iel + i)])).toFinset.card ≤ 2 * sz) :
    ∃ h' A', hashEdgeDelone g iel i a b (h, A) = .ok (h', A') ∧
      Glue sz (es ++ [Ev.dart (keyOf a b) (4 * iel + i)])
        (ev s (.dart (keyOf a b) (4 * iel + i))) h' A' := by
  have I := G.inv
  have hia : Nat.min a b ≠ 0 := by rw [minA]; split <;> assumption
  have hkeys : keys (es ++ [Ev.dart (keyOf a b) (4 * iel + i)]) = keys es ++ [keyOf a b] := by
    rw [keys_append]; rfl
  rw [hkeys] at hroom
  have hnone' : ∀ κ, (ev s (.dart (keyOf a b) (4 * iel + i))).M κ = none ↔
      κ ∉ keys (es ++ [Ev.dart (keyOf a b) (4 * iel + i)]) := by
    intro κ
    have := run_M s [Ev.dart (keyOf a b) (4 * iel + i)] κ
    rw [show run s [Ev.dart (keyOf a b) (4 * iel + i)] = ev s (.dart (keyOf a b) (4 * iel + i)) from
      rfl] at this
    rw [this, G.none, keys_append, List.mem_append, not_or]
  have hbo := I.bucket_ok (Nat.min a b) (Nat.max a b)
  have hx := keyOk_edge (Nat.min a b) (Nat.max a b)
  have glued : ∀ q, Used h q → ckey false (h.item q) = keyOf a b →
      Glue sz (es ++ [Ev.dart (keyOf a b) (4 * iel + i)])
        (ev s (.dart (keyOf a b) (4 * iel + i))) h
        (setAt (setAt A (adjIdx iel i) (h.item q).k)
          (adjIdx ((h.item q).k / 4) ((h.item q).k % 4)) (4 * iel + i)) := by
    intro q hu hq
    have hM : s.M (keyOf a b) = some (h.item q).k := I.get_of_mem hu hq
    have h4 := hpos _ _ hM
    refine ⟨?_, G.siz, G.max, ?_, ?_, hnone'⟩
    · simp only [ev, hM]; exact I
    · rw [hkeys]; exact G.nxt.trans (Nat.add_le_add_left card_snoc_le _)
    · intro x hx4
      simp only [ev, hM]
      rw [cells_set (by omega) (Nat.mod_lt _ (by decide)) hx4,
        show 4 * ((h.item q).k / 4) + (h.item q).k % 4 = (h.item q).k by omega]
      simp only [Swap23.upd]
      split_ifs with e1 e2
      · rfl
      · rw [cells_set hk hi hx4]; simp [Swap23.upd, e2]
      · rw [cells_set hk hi hx4]; simp only [Swap23.upd, if_neg e2]; exact G.cell x hx4
  unfold hashEdgeDelone
  simp only [if_neg hbo.1, if_neg hbo.2]
  by_cases hne : (h.item (bucket h.siz (Nat.min a b) (Nat.max a b))).a = 0
  · have hM : s.M (keyOf a b) = none := I.none_of_empty (x := keyOf a b) hne
    rw [if_neg (by simpa using hne)]
    refine ⟨_, _, rfl, ?_, G.siz, G.max, ?_, ?_, hnone'⟩
    · simp only [ev, hM]
      exact I.insHead (x := keyOf a b) hia _ rfl rfl rfl rfl hne
    · rw [hkeys]; exact G.nxt.trans (Nat.add_le_add_left card_snoc_le _)
    · intro x hx4; simp only [ev, hM]; exact G.cell x hx4
  · rw [if_pos hne]
    have hu : Used h (bucket h.siz (Nat.min a b) (Nat.max a b)) := Or.inl ⟨bucket_lt I.hsiz, hne⟩
    by_cases hm : ckey false (h.item (bucket h.siz (Nat.min a b) (Nat.max a b))) = keyOf a b
    · rw [if_pos ((cmatch_iff hx).2 hm)]
      exact ⟨_, _, rfl, glued _ hu hm⟩
    · rw [if_neg (fun hc => hm ((cmatch_iff hx).1 hc))]
      rcases I.find_spec (x := keyOf a b) hx hne hm with ⟨q, h1, h2, h3⟩ | ⟨t, h1, h2, h3, h4, h5⟩
      · rw [show walkIns false (Nat.min a b, Nat.max a b, 0) h h.fuel
          (bucket h.siz (Nat.min a b) (Nat.max a b)) = .ok (.hit q) from h1]
        exact ⟨_, _, rfl, glued _ h2 h3⟩
      · rw [show walkIns false (Nat.min a b, Nat.max a b, 0) h h.fuel
          (bucket h.siz (Nat.min a b) (Nat.max a b)) = .ok (.tail t) from h1]
        have hnk : keyOf a b ∉ keys es := (G.none _).1 h5
        rw [card_snoc hnk] at hroom
        have hnx := G.nxt
        have hmx := G.max
        have hfr := I.free h.nxt (Nat.le_refl _) I.hmax
        have htl : t < h.nxt := by
          have := I.hnxt
          rcases h2 with ⟨h1, _⟩ | ⟨_, h1⟩ <;> omega
        rcases I.appendThenGrow_spec (x := keyOf a b) hia h2 h3 h4 h5
          (fun c => { c with a := Nat.min a b, b := Nat.max a b, k := 4 * iel + i }) (4 * iel + i)
          (fun c => ⟨rfl, rfl, rfl, rfl⟩) (some 1) (fun n hn => by cases hn; exact Nat.le_refl _)
          with ⟨h', e1, e2⟩ | ⟨e1, e2⟩
        · have hitem : ((h.put t { h.item t with nxt := h.nxt }).item h.nxt).nxt = h.nxt + 1 := by
            simp only [Hash.put, if_neg (show h.nxt ≠ t by omega)]; exact hfr
          have key : ∀ g, appendThenGrow h t
              (fun c => { c with a := Nat.min a b, b := Nat.max a b, k := 4 * iel + i }) g =
              .ok (({ (h.put t { h.item t with nxt := h.nxt }) with nxt := h.nxt + 1 } : Hash).put
                h.nxt { ((h.put t { h.item t with nxt := h.nxt }).item h.nxt) with
                  a := Nat.min a b, b := Nat.max a b, k := 4 * iel + i, nxt := 0 }) := by
            intro g
            unfold appendThenGrow
            simp only [hitem]
            rw [if_neg (by simp only [Hash.put]; omega), if_neg (by simp only [Hash.put]; omega)]
          rw [key] at e1
          simp only [key]
          simp only [Outcome.ok.injEq] at e1
          refine ⟨_, _, rfl, ?_, ?_, ?_, ?_, ?_, hnone'⟩
          · simp only [ev, h5]
            rw [e1]; exact e2
          · exact G.siz
          · exact G.max
          · rw [hkeys, card_snoc hnk]; simp only [Hash.put]; omega
          · intro x hx4; simp only [ev, h5]; exact G.cell x hx4
        · cases e2

end Mmg.Delone
