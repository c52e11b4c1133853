/- Lemmas on the edge table in `Pack2Model`. -/
import Verif.Pack2Tri

namespace Mmg.Pack2

open Mmg.Pack3 (upd upd_same upd_ne Elt eok Els packEls has REF REQ BDY CRN NOSURF)

variable {α β K : Type}

theorem counts_eq (opn nb : Bool) (r r1 : Int) (t : BitVec 16) : counts opn nb r r1 t = lists opn nb r r1 t := by
  unfold counts lists
  generalize decide (r > r1) = a
  generalize decide (r = r1) = b
  generalize sin t = c
  generalize has t REF = d
  generalize has t BDY = e
  revert opn nb a b c d e
  decide

/-! ### Triangles with their final tags -/

/-- A triangle with its tags cleaned. -/
def cleaned (e : Elt (Side β)) : Elt (Side β) :=
  { e with dat := { e.dat with tag := fun i => if i < 3 then untag (e.dat.tag i) else e.dat.tag i } }

def cleanUpTo (m : Nat) (tri : Nat → Elt (Side β)) : Nat → Elt (Side β) :=
  fun k => if 1 ≤ k ∧ k ≤ m ∧ eok (tri k) = true then cleaned (tri k) else tri k

theorem cleanUpTo_eok (m : Nat) (tri : Nat → Elt (Side β)) (k : Nat) : eok (cleanUpTo m tri k) = eok (tri k) := by
  unfold cleanUpTo; split_ifs <;> rfl

theorem cleanUpTo_ref (m : Nat) (tri : Nat → Elt (Side β)) (k : Nat) : (cleanUpTo m tri k).dat.ref = (tri k).dat.ref := by
  unfold cleanUpTo; split_ifs <;> rfl

/-- A side of a triangle is listed. -/
def triListed (opn : Bool) (tri : Nat → Elt (Side β)) (adja : Nat → Nat) (k i : Nat) : Bool :=
  lists opn (decide (adja (tidx k i) / 3 ≠ 0)) (tri k).dat.ref (tri (adja (tidx k i) / 3)).dat.ref
    (untag ((tri k).dat.tag i))

theorem countTri_spec (opn : Bool) (adja : Nat → Nat) (tri : Nat → Elt (Side β)) (na n : Nat) :
    countTri opn adja n (na, tri) =
      (na + ((List.range' 1 n).map fun k =>
        if eok (tri k) then ([0, 1, 2].countP fun i => triListed opn tri adja k i) else 0).sum, cleanUpTo n tri) := by
  induction n with
  | zero =>
    unfold countTri
    simp only [List.range'_zero, List.foldl_nil, List.map_nil, List.sum_nil, Nat.add_zero, Prod.mk.injEq, true_and]
    funext k
    unfold cleanUpTo
    rw [if_neg (by omega)]
  | succ n ih =>
    unfold countTri at ih ⊢
    rw [foldl_range', ih, range'_succ, List.map_append, List.sum_append]
    dsimp only
    rw [cleanUpTo_eok]
    have hnk : cleanUpTo n tri (n + 1) = tri (n + 1) := if_neg (by omega)
    cases hv : eok (tri (n + 1))
    · simp only [Bool.false_eq_true, if_false, List.map_cons, List.map_nil, List.sum_cons, List.sum_nil, hv,
        Nat.add_zero, Prod.mk.injEq, true_and]
      funext k
      unfold cleanUpTo
      by_cases h : 1 ≤ k ∧ k ≤ n ∧ eok (tri k) = true
      · rw [if_pos h, if_pos ⟨h.1, by omega, h.2.2⟩]
      · rw [if_neg h, if_neg]
        rintro ⟨h1, h2, h3⟩
        rcases Nat.lt_or_ge n k with h4 | h4
        · rw [show k = n + 1 by omega, hv] at h3; simp at h3
        · exact h ⟨h1, h4, h3⟩
    · simp only [if_true, List.map_cons, List.map_nil, List.sum_cons, List.sum_nil, hv, Nat.add_zero]
      have keepref : ∀ (tr : Nat → Elt (Side β)) (f : Nat → BitVec 16), (∀ j, (tr j).dat.ref = (tri j).dat.ref) →
          ∀ j, (upd tr (n + 1) ⟨(tr (n + 1)).v, ⟨(tr (n + 1)).dat.ref, f, (tr (n + 1)).dat.edg, (tr (n + 1)).dat.dat⟩⟩
            j).dat.ref = (tri j).dat.ref := by
        intro tr f hr x
        by_cases hx : x = n + 1
        · rw [hx, upd_same]; exact hr _
        · rw [upd_ne _ _ hx]; exact hr x
      have step : ∀ (c : Nat) (tr : Nat → Elt (Side β)) (i : Nat), (∀ j, (tr j).dat.ref = (tri j).dat.ref) →
          (tr (n + 1)).dat.tag i = (tri (n + 1)).dat.tag i →
          countTriSide opn adja (n + 1) (c, tr) i = (c + if triListed opn tri adja (n + 1) i then 1 else 0,
            upd tr (n + 1) ⟨(tr (n + 1)).v, ⟨(tr (n + 1)).dat.ref,
              upd (tr (n + 1)).dat.tag i (untag ((tr (n + 1)).dat.tag i)), (tr (n + 1)).dat.edg,
              (tr (n + 1)).dat.dat⟩⟩) := by
        intro c tr i hr ht
        unfold countTriSide triListed
        dsimp only
        rw [counts_eq, keepref tr _ hr, upd_same, hr (n + 1), ht]
        split_ifs <;> rfl
      have hr0 := cleanUpTo_ref n tri
      simp only [List.foldl_cons, List.foldl_nil]
      rw [step _ _ 0 hr0 (by rw [hnk])]
      rw [step _ _ 1 (keepref _ _ hr0) (by rw [upd_same, hnk]; rfl)]
      rw [step _ _ 2 (keepref _ _ (keepref _ _ hr0)) (by simp only [upd_same, hnk]; rfl)]
      simp only [upd_same, hnk, Prod.mk.injEq]
      refine ⟨?_, ?_⟩
      · simp only [List.countP_cons, List.countP_nil]
        omega
      · funext k
        by_cases hk : k = n + 1
        · subst hk
          rw [upd_same]
          unfold cleanUpTo
          rw [if_pos ⟨by omega, le_refl _, hv⟩]
          unfold cleaned
          congr 2
          funext i
          unfold upd
          by_cases h2 : i = 2
          · subst h2; rfl
          · by_cases h1 : i = 1
            · subst h1; rfl
            · by_cases h0 : i = 0
              · subst h0; rfl
              · simp only [h0, h1, h2, if_false]
                rw [if_neg (by omega)]
        · rw [upd_ne _ _ hk, upd_ne _ _ hk, upd_ne _ _ hk]
          unfold cleanUpTo
          by_cases h : 1 ≤ k ∧ k ≤ n ∧ eok (tri k) = true
          · rw [if_pos h, if_pos ⟨h.1, by omega, h.2.2⟩]
          · rw [if_neg h, if_neg (fun hc => h ⟨hc.1, by omega, hc.2.2⟩)]

/-! ### Filling -/

/-- Writing of several entries. -/
def pushAll (namax : Nat) (T : Tab) (L : List Edge) : Tab := L.foldl (Tab.push namax) T

theorem pushAll_spec (namax : Nat) : ∀ (L : List Edge) (T : Tab),
    (pushAll namax T L).ned = T.ned + L.length ∧
    (∀ j, j ≤ T.ned → (pushAll namax T L).edge j = T.edge j) ∧
    (∀ j (h : j < L.length), (pushAll namax T L).edge (T.ned + 1 + j) = L[j]) ∧
    (T.bad = false → T.ned + L.length ≤ namax → (pushAll namax T L).bad = false)
  | [], T => ⟨rfl, fun _ _ => rfl, fun j h => by simp at h, fun h _ => h⟩
  | e :: L, T => by
    obtain ⟨h1, h2, h3, h4⟩ := pushAll_spec namax L (T.push namax e)
    have hn : (T.push namax e).ned = T.ned + 1 := rfl
    have he : pushAll namax T (e :: L) = pushAll namax (T.push namax e) L := rfl
    rw [he]
    rw [hn] at h1 h2 h3 h4
    refine ⟨by rw [h1, List.length_cons]; omega, ?_, ?_, ?_⟩
    · intro j hj
      rw [h2 j (by omega)]
      exact upd_ne _ _ (by omega)
    · intro j hj
      cases j with
      | zero =>
        rw [Nat.add_zero, h2 _ (le_refl _)]
        exact upd_same _ _ _
      | succ j =>
        rw [show T.ned + 1 + (j + 1) = T.ned + 1 + 1 + j by omega, h3 j (by simpa using hj)]
        rfl
    · intro hb hl
      rw [List.length_cons] at hl
      refine h4 ?_ (by omega)
      unfold Tab.push
      simp only [hb, Bool.false_or, decide_eq_false_iff_not]
      omega

theorem foldl_push {γ : Type} (namax : Nat) (p : γ → Bool) (f : γ → Edge) : ∀ (l : List γ) (T : Tab),
    l.foldl (fun T i => if p i then T.push namax (f i) else T) T = pushAll namax T ((l.filter p).map f)
  | [], T => rfl
  | x :: l, T => by
    rw [List.foldl_cons, foldl_push namax p f l]
    cases h : p x
    · rw [List.filter_cons_of_neg (by simp [h])]; simp
    · rw [List.filter_cons_of_pos h]; simp only [if_true]; rfl

theorem pushAll_append (namax : Nat) (T : Tab) (L L' : List Edge) :
    pushAll namax T (L ++ L') = pushAll namax (pushAll namax T L) L' := List.foldl_append

/-- Listed sides of the valid elements among the first `n`, in lexicographic order; `sides` are the local sides. -/
def sidesOf (ok : Nat → Bool) (p : Nat → Nat → Bool) (sides : List Nat) (n : Nat) : List (Nat × Nat) :=
  (List.range' 1 n).flatMap fun k => if ok k then (sides.filter (p k)).map fun i => (k, i) else []

theorem sidesOf_succ (ok : Nat → Bool) (p : Nat → Nat → Bool) (sides : List Nat) (n : Nat) :
    sidesOf ok p sides (n + 1) = sidesOf ok p sides n ++
      if ok (n + 1) then (sides.filter (p (n + 1))).map fun i => (n + 1, i) else [] := by
  unfold sidesOf
  rw [range'_succ, List.flatMap_append, List.flatMap_cons, List.flatMap_nil, List.append_nil]

theorem mem_sidesOf {ok : Nat → Bool} {p : Nat → Nat → Bool} {sides : List Nat} {n : Nat} {k i : Nat} :
    (k, i) ∈ sidesOf ok p sides n ↔ 1 ≤ k ∧ k ≤ n ∧ ok k = true ∧ i ∈ sides ∧ p k i = true := by
  unfold sidesOf
  rw [List.mem_flatMap]
  constructor
  · rintro ⟨x, hx, h⟩
    rw [List.mem_range'_1] at hx
    split_ifs at h with ho
    · obtain ⟨j, hj, he⟩ := List.mem_map.1 h
      rw [Prod.mk.injEq] at he
      obtain ⟨rfl, rfl⟩ := he
      rw [List.mem_filter] at hj
      exact ⟨by omega, by omega, ho, hj.1, hj.2⟩
    · simp at h
  · rintro ⟨h1, h2, h3, h4, h5⟩
    refine ⟨k, List.mem_range'_1.2 ⟨h1, by omega⟩, ?_⟩
    rw [if_pos h3]
    exact List.mem_map.2 ⟨i, List.mem_filter.2 ⟨h4, h5⟩, rfl⟩

theorem nodup_sidesOf (ok : Nat → Bool) (p : Nat → Nat → Bool) {sides : List Nat} (hs : sides.Nodup) (n : Nat) :
    (sidesOf ok p sides n).Nodup := by
  induction n with
  | zero => exact List.nodup_nil
  | succ n ih =>
    rw [sidesOf_succ, List.nodup_append]
    refine ⟨ih, ?_, ?_⟩
    · split_ifs
      · exact (hs.filter _).map fun a b h => (Prod.mk.inj h).2
      · exact List.nodup_nil
    · rintro ⟨a, b⟩ ha c hc rfl
      rw [mem_sidesOf] at ha
      split_ifs at hc
      · obtain ⟨j, _, he⟩ := List.mem_map.1 hc
        rw [Prod.mk.injEq] at he
        omega
      · simp at hc

/-- A loop over elements that writes entries for the listed sides and counts the valid elements. -/
theorem fill_gen (namax : Nat) (ok : Nat → Bool) (p : Nat → Nat → Bool) (f : Nat → Nat → Nat → Edge) (sides : List Nat)
    (T : Tab) (n : Nat) :
    (List.range' 1 n).foldl (fun s k => if ok k then
      (s.1 + 1, sides.foldl (fun T i => if p k i then T.push namax (f k (s.1 + 1) i) else T) s.2) else s) (0, T) =
    (rank ok n, pushAll namax T ((sidesOf ok p sides n).map fun x => f x.1 (rank ok x.1) x.2)) := by
  induction n with
  | zero => rfl
  | succ n ih =>
    rw [foldl_range', ih, sidesOf_succ]
    dsimp only
    cases hv : ok (n + 1)
    · simp only [Bool.false_eq_true, if_false, List.append_nil, rank_succ_neg hv]
    · simp only [if_true, rank_succ_pos hv, foldl_push, List.map_append, pushAll_append, List.map_map]
      rw [Prod.mk.injEq]
      refine ⟨rfl, ?_⟩
      congr 1
      apply List.map_congr_left
      intro i _
      simp only [Function.comp, rank_succ_pos hv]

/-- The entry of a side of a triangle. -/
def triEdge (tri : Nat → Elt (Side β)) (k r i : Nat) : Edge :=
  ⟨(tri k).v (inxt2 i), (tri k).v (iprv2 i), 3 * r + i, (tri k).dat.edg i, (tri k).dat.tag i⟩

theorem fillTri_spec (opn : Bool) (tri : Nat → Elt (Side β)) (adja : Nat → Nat) (n namax : Nat) (T : Tab) :
    fillTri opn tri adja n namax T = (rank (fun k => eok (tri k)) n, pushAll namax T
      ((sidesOf (fun k => eok (tri k)) (fun k i => lists opn (decide (adja (tidx k i) / 3 ≠ 0)) (tri k).dat.ref
        (tri (adja (tidx k i) / 3)).dat.ref ((tri k).dat.tag i)) [0, 1, 2] n).map fun x =>
          triEdge tri x.1 (rank (fun k => eok (tri k)) x.1) x.2)) :=
  fill_gen namax (fun k => eok (tri k)) _ (triEdge tri) [0, 1, 2] T n

/-- A side of a quadrilateral is listed. -/
def quadListed (opn : Bool) (quad : Nat → Elt (Side β)) (adjq : Nat → Int) (k i : Nat) : Bool :=
  decide (0 ≤ (adjq (qidx k i)).tdiv 4) &&
    lists opn (decide ((adjq (qidx k i)).tdiv 4 ≠ 0)) (quad k).dat.ref (quad ((adjq (qidx k i)).tdiv 4).toNat).dat.ref
      ((quad k).dat.tag i)

/-- The entry of a side of a quadrilateral. -/
def quadEdge (quad : Nat → Elt (Side β)) (k r i : Nat) : Edge :=
  ⟨(quad k).v (idirq i).1, (quad k).v (idirq i).2, 4 * r + i, (quad k).dat.edg i, (quad k).dat.tag i⟩

theorem fillQuad_spec (opn : Bool) (quad : Nat → Elt (Side β)) (adjq : Nat → Int) (n namax : Nat) (T : Tab) :
    fillQuad opn quad adjq n namax T = (rank (fun k => eok (quad k)) n, pushAll namax T
      ((sidesOf (fun k => eok (quad k)) (quadListed opn quad adjq) [0, 1, 2, 3] n).map fun x =>
          quadEdge quad x.1 (rank (fun k => eok (quad k)) x.1) x.2)) := by
  rw [← fill_gen namax (fun k => eok (quad k)) (quadListed opn quad adjq) (quadEdge quad) [0, 1, 2, 3] T n]
  unfold fillQuad
  congr 1
  funext s k
  congr 2
  congr 1
  funext T i
  dsimp only
  unfold quadListed quadEdge
  by_cases h : (adjq (qidx k i)).tdiv 4 < 0
  · rw [if_pos h, if_neg]
    simp only [Bool.and_eq_true, decide_eq_true_eq, not_and]
    intro hc; omega
  · rw [if_neg h]
    have : decide (0 ≤ (adjq (qidx k i)).tdiv 4) = true := decide_eq_true (by omega)
    rw [this, Bool.true_and]

/-! ### Counting -/

theorem length_sidesOf (ok : Nat → Bool) (p : Nat → Nat → Bool) (sides : List Nat) (n : Nat) :
    (sidesOf ok p sides n).length = ((List.range' 1 n).map fun k => if ok k then sides.countP (p k) else 0).sum := by
  induction n with
  | zero => rfl
  | succ n ih =>
    rw [sidesOf_succ, List.length_append, ih, range'_succ, List.map_append, List.sum_append]
    cases hv : ok (n + 1)
    · simp [hv]
    · simp [hv, List.countP_eq_length_filter]

theorem countQuad_spec (opn : Bool) (quad : Nat → Elt (Side β)) (adjq : Nat → Int) (n na : Nat) :
    countQuad opn quad adjq n na = na + (sidesOf (fun k => eok (quad k)) (quadListed opn quad adjq) [0, 1, 2, 3] n).length := by
  induction n with
  | zero => rfl
  | succ n ih =>
    unfold countQuad at ih ⊢
    rw [foldl_range', ih, sidesOf_succ, List.length_append]
    dsimp only
    cases hv : eok (quad (n + 1))
    · simp
    · simp only [if_true, List.length_map]
      have key : ∀ (l : List Nat) (x : Nat), l.foldl (fun na i =>
          if (adjq (qidx (n + 1) i)).tdiv 4 < 0 then na
          else if counts opn (decide ((adjq (qidx (n + 1) i)).tdiv 4 ≠ 0)) (quad (n + 1)).dat.ref
            (quad ((adjq (qidx (n + 1) i)).tdiv 4).toNat).dat.ref ((quad (n + 1)).dat.tag i) then na + 1 else na) x =
          x + (l.filter (quadListed opn quad adjq (n + 1))).length := by
        intro l
        induction l with
        | nil => intro x; rfl
        | cons i l ihl =>
          intro x
          rw [List.foldl_cons, ihl]
          by_cases h : (adjq (qidx (n + 1) i)).tdiv 4 < 0
          · have hq : quadListed opn quad adjq (n + 1) i = false := by
              unfold quadListed
              rw [decide_eq_false (by omega)]; rfl
            rw [if_pos h, List.filter_cons_of_neg (by simp [hq])]
          · have hq : quadListed opn quad adjq (n + 1) i = lists opn (decide ((adjq (qidx (n + 1) i)).tdiv 4 ≠ 0))
                (quad (n + 1)).dat.ref (quad ((adjq (qidx (n + 1) i)).tdiv 4).toNat).dat.ref
                ((quad (n + 1)).dat.tag i) := by
              unfold quadListed
              rw [decide_eq_true (by omega)]; rfl
            rw [if_neg h, counts_eq, ← hq]
            cases hv : quadListed opn quad adjq (n + 1) i
            · rw [List.filter_cons_of_neg (by simp [hv])]; simp
            · rw [List.filter_cons_of_pos hv]; simp only [if_true, List.length_cons]; omega
      rw [key]
      omega

end Mmg.Pack2
