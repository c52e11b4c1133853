/-
  C73: a mesh saved in a file and loaded again.
-/
import Verif.IoLemmas
import Mathlib.Tactic.Linarith

namespace Mmg.Io

variable {R : Type}

/-! ### Specification -/

/-- New number of the vertex `k`: number of used vertices among the first `k`. -/
def num (m : Mesh R) (k : Nat) : Nat := (m.pts.take k).countP fun p => p.ok

def inTet (m : Mesh R) (k : Nat) : Bool := m.tets.any fun e => e.ok && e.v.contains k

def inPrism (m : Mesh R) (k : Nat) : Bool := m.prisms.any fun e => e.ok && e.v.contains k

/-- The used vertices with their numbers. -/
def kept (m : Mesh R) : List (Pt R × Nat) := (m.pts.zipIdx 1).filter fun q => q.1.ok

def pr3 (pr : R → R) (c : R × R × R) : R × R × R := (pr c.1, pr c.2.1, pr c.2.2)

/-- A regular or reference boundary vertex of a tetrahedron, not a corner nor required. -/
def normal (m : Mesh R) (q : Pt R × Nat) : Bool :=
  m.xp && inTet m q.2 && !(q.1.crn || q.1.req) && (q.1.bdy && (!q.1.geo || q.1.nom))

/-- A vertex after the reading: it is used if it is required or is a vertex of a tetrahedron or of a
prism. -/
def ptOut (bin : Bool) (pr : R → R) (zero : R) (nz : R × R × R → R × R × R) (iso : Bool)
    (m : Mesh R) (q : Pt R × Nat) : Pt R :=
  { c := pr3 pr q.1.c
    ref := q.1.ref.natAbs
    nul := !(q.1.req || inTet m q.2 || inPrism m q.2)
    crn := q.1.crn
    req := q.1.req
    par := !bin && q.1.par
    bdy := false
    geo := false
    rf := false
    nom := false
    flag := false
    n1 := (zero, zero, zero)
    n := if normal m q && !iso then nz (pr3 pr q.1.n1) else (zero, zero, zero) }

/-- An element after the reading. -/
def eltOut (m : Mesh R) (e : Elt) : Elt :=
  { v := e.v.map (num m), ref := e.ref.natAbs, req := false, par := false, geo := false }

/-- A tetrahedron whose vertices are in the wrong order is turned. -/
def turned (neg : List (R × R × R) → Bool) (pr : R → R) (m : Mesh R) (e : Elt) (o : Elt) : Elt :=
  if neg (e.v.filterMap fun k => (m.pts[k - 1]?).map fun p => pr3 pr p.c) then
    { o with v := o.v.take 2 ++ [o.v.getD 3 0, o.v.getD 2 0] }
  else o

/-- What is expected of the saving and loading. -/
def stored (bin : Bool) (pr : R → R) (zero : R) (neg : List (R × R × R) → Bool)
    (nz : R × R × R → R × R × R) (iso : Bool) (m : Mesh R) : Mesh R :=
  { pts := (kept m).map (ptOut bin pr zero nz iso m)
    tets := (m.tets.filter fun e => e.ok).map fun e =>
      { turned neg pr m e (eltOut m e) with req := e.req, par := !bin && e.par }
    prisms := (m.prisms.filter fun e => e.ok).map (eltOut m)
    tris := m.tris.map fun e => { eltOut m e with req := e.req, par := !bin && e.par }
    quads := m.quads.map fun e => { eltOut m e with req := e.req, par := !bin && e.par }
    edges := m.edges.map fun e =>
      { eltOut m e with req := e.req, par := !bin && e.par, geo := e.geo }
    xp := false }

/-- The vertices of the element are used vertices of the mesh. -/
def EltOK (m : Mesh R) (a : Nat) (e : Elt) : Prop :=
  e.v.length = a ∧ ∀ k ∈ e.v, 1 ≤ k ∧ ∃ p, m.pts[k - 1]? = some p ∧ p.ok = true

structure Elts (m : Mesh R) : Prop where
  tets : ∀ e ∈ m.tets, e.ok = true → EltOK m 4 e
  prisms : ∀ e ∈ m.prisms, e.ok = true → EltOK m 6 e
  tris : ∀ e ∈ m.tris, EltOK m 3 e
  quads : ∀ e ∈ m.quads, e.ok = true ∧ EltOK m 4 e
  edges : ∀ e ∈ m.edges, EltOK m 2 e

/-- The mesh has a tetrahedron. -/
structure Valid (m : Mesh R) : Prop extends Elts m where
  one : ∃ e ∈ m.tets, e.ok = true

/-! ### Vertices -/

theorem kept_spec_aux (l : List (Pt R)) (n i : Nat) (p : Pt R) (k : Nat)
    (h : ((l.zipIdx n).filter fun q => q.1.ok)[i]? = some (p, k)) :
    n ≤ k ∧ l[k - n]? = some p ∧ p.ok = true ∧ (l.take (k - n + 1)).countP (fun p => p.ok) = i + 1 := by
  induction l generalizing n i with
  | nil => simp at h
  | cons a l ih =>
    rw [List.zipIdx_cons] at h
    by_cases ha : a.ok
    · rw [List.filter_cons_of_pos (by simpa using ha)] at h
      cases i with
      | zero =>
        simp only [List.getElem?_cons_zero, Option.some.injEq, Prod.mk.injEq] at h
        obtain ⟨rfl, rfl⟩ := h
        simp [ha]
      | succ i =>
        rw [List.getElem?_cons_succ] at h
        obtain ⟨h1, h2, h3, h4⟩ := ih (n + 1) i h
        have e : k - n = (k - (n + 1)) + 1 := by omega
        refine ⟨by omega, ?_, h3, ?_⟩
        · rw [e, List.getElem?_cons_succ]; exact h2
        · rw [e, List.take_succ_cons, List.countP_cons, h4, if_pos ha]
    · rw [List.filter_cons_of_neg (by simpa using ha)] at h
      obtain ⟨h1, h2, h3, h4⟩ := ih (n + 1) i h
      have e : k - n = (k - (n + 1)) + 1 := by omega
      refine ⟨by omega, ?_, h3, ?_⟩
      · rw [e, List.getElem?_cons_succ]; exact h2
      · rw [e, List.take_succ_cons, List.countP_cons, h4, if_neg ha]

theorem kept_spec (m : Mesh R) (i : Nat) (p : Pt R) (k : Nat) (h : (kept m)[i]? = some (p, k)) :
    1 ≤ k ∧ m.pts[k - 1]? = some p ∧ p.ok = true ∧ num m k = i + 1 := by
  obtain ⟨h1, h2, h3, h4⟩ := kept_spec_aux m.pts 1 i p k h
  refine ⟨h1, h2, h3, ?_⟩
  have : k - 1 + 1 = k := by omega
  rw [this] at h4
  exact h4

theorem kept_get (m : Mesh R) (k : Nat) (p : Pt R) (h1 : 1 ≤ k) (hp : m.pts[k - 1]? = some p)
    (ho : p.ok = true) : (kept m)[num m k - 1]? = some (p, k) ∧ 1 ≤ num m k := by
  have hmem : (p, k) ∈ kept m := by
    unfold kept
    rw [List.mem_filter]
    refine ⟨?_, ho⟩
    rw [List.mem_zipIdx_iff_le_and_getElem?_sub]
    exact ⟨h1, hp⟩
  obtain ⟨i, hi⟩ := List.mem_iff_getElem?.1 hmem
  obtain ⟨-, -, -, hn⟩ := kept_spec m i p k hi
  rw [hn]
  exact ⟨by simpa using hi, by omega⟩

theorem tmps_get (l : List (Pt R)) (n k : Nat) (p : Pt R) (hp : l[k]? = some p)
    (ho : p.ok = true) : (tmps l n)[k]? = some (n + (l.take (k + 1)).countP fun p => p.ok) := by
  induction l generalizing n k with
  | nil => simp at hp
  | cons a l ih =>
    rw [tmps]
    cases k with
    | zero =>
      simp only [List.getElem?_cons_zero, Option.some.injEq] at hp
      subst hp
      simp [ho]
    | succ k =>
      rw [List.getElem?_cons_succ] at hp
      rw [List.take_succ_cons, List.countP_cons]
      by_cases ha : a.ok
      · rw [if_pos ha, if_pos ha, List.getElem?_cons_succ, ih (n + 1) k hp]
        congr 1; omega
      · rw [if_neg ha, if_neg ha, List.getElem?_cons_succ, ih n k hp]
        rfl

theorem tmp_eq (m : Mesh R) (k : Nat) (p : Pt R) (h1 : 1 ≤ k) (hp : m.pts[k - 1]? = some p)
    (ho : p.ok = true) : tmp m k = num m k := by
  obtain ⟨j, rfl⟩ : ∃ j, k = j + 1 := ⟨k - 1, by omega⟩
  have := tmps_get m.pts 0 j p hp ho
  unfold tmp num
  rw [List.getD_cons_succ, List.getD_eq_getElem?_getD, this]
  simp

theorem mapIdx_zipIdx {α β : Type} (g : α → Nat → β) (l : List α) (n : Nat) :
    (l.mapIdx fun i p => g p (i + n)) = (l.zipIdx n).map fun q => g q.1 q.2 := by
  induction l generalizing n with
  | nil => rfl
  | cons a l ih =>
    rw [List.mapIdx_cons, List.zipIdx_cons, List.map_cons, ← ih (n + 1)]
    simp [Nat.add_assoc, Nat.add_comm 1]

/-- The used vertices with their flag. -/
def withFlag (m : Mesh R) (q : Pt R × Nat) : Pt R := { q.1 with flag := inTet m q.2 }

theorem flags_filter (m : Mesh R) : ((flags m).filter fun p => p.ok) = (kept m).map (withFlag m) := by
  have h : flags m = (m.pts.zipIdx 1).map fun q => withFlag m q :=
    mapIdx_zipIdx (fun p i => withFlag m (p, i)) m.pts 1
  rw [h, List.filter_map]
  rfl

theorem markIdx_map {α β : Type} (f : β → Bool) (g : α → β) (l : List α) (n : Nat) :
    markIdx f (l.map g) n = markIdx (fun x => f (g x)) l n := by
  induction l generalizing n with
  | nil => rfl
  | cons x l ih => simp only [List.map_cons, markIdx, ih]

theorem countP_flags (m : Mesh R) (f : Pt R → Bool) :
    (flags m).countP (fun p => p.ok && f p) = (kept m).countP fun q => f (withFlag m q) := by
  have h : (flags m).countP (fun p => p.ok && f p)
      = ((flags m).filter fun p => p.ok).countP f := by
    rw [List.countP_filter]
    congr 1
    funext p
    exact Bool.and_comm ..
  rw [h, flags_filter, List.countP_map]
  rfl

/-! ### Used vertices -/

theorem touch_spec (vs : List Nat) : ∀ (l : List (Pt R)), (∀ v ∈ vs, 1 ≤ v ∧ v ≤ l.length) →
    touch l vs = some (l.mapIdx fun i p => if i + 1 ∈ vs then { p with nul := false } else p) := by
  induction vs with
  | nil =>
    intro l _
    rw [touch]
    congr 1
    apply List.ext_getElem?
    intro i
    simp
  | cons v vs ih =>
    intro l h
    obtain ⟨h1, h2⟩ := h v (List.mem_cons_self ..)
    rw [touch, if_neg (by omega), if_neg (by omega), ih _ (by
      intro w hw
      rw [List.length_modify]
      exact h w (List.mem_cons_of_mem _ hw))]
    congr 1
    apply List.ext_getElem?
    intro i
    simp only [List.getElem?_mapIdx, List.getElem?_modify]
    cases l[i]? with
    | none => simp
    | some p =>
      by_cases hv : v - 1 = i
      · have : i + 1 = v := by omega
        simp [hv, this]
      · have : ¬ i + 1 = v := by omega
        simp [hv, this]

theorem touch_kept (m : Mesh R) (vs : List Nat) (e : Pt R × Nat → Pt R)
    (hv : ∀ k ∈ vs, 1 ≤ k ∧ ∃ p, m.pts[k - 1]? = some p ∧ p.ok = true) :
    touch ((kept m).map e) (vs.map (num m)) =
      some ((kept m).map fun q => if q.2 ∈ vs then { e q with nul := false } else e q) := by
  rw [touch_spec]
  · congr 1
    apply List.ext_getElem?
    intro i
    simp only [List.getElem?_mapIdx, List.getElem?_map]
    cases hq : (kept m)[i]? with
    | none => rfl
    | some q =>
      obtain ⟨p, k⟩ := q
      obtain ⟨h1, h2, h3, h4⟩ := kept_spec m i p k hq
      have hiff : i + 1 ∈ vs.map (num m) ↔ k ∈ vs := by
        constructor
        · intro h
          obtain ⟨k', hk', e'⟩ := List.mem_map.1 h
          obtain ⟨h1', p', hp', ho'⟩ := hv k' hk'
          obtain ⟨hg, -⟩ := kept_get m k' p' h1' hp' ho'
          rw [e'] at hg
          simp only [Nat.add_sub_cancel, hq, Option.some.injEq, Prod.mk.injEq] at hg
          rw [hg.2]; exact hk'
        · intro h
          exact List.mem_map.2 ⟨k, h, h4⟩
      simp only [Option.map_some, hiff]
  · intro v hv'
    obtain ⟨k, hk, rfl⟩ := List.mem_map.1 hv'
    obtain ⟨h1, p, hp, ho⟩ := hv k hk
    obtain ⟨hg, h0⟩ := kept_get m k p h1 hp ho
    obtain ⟨hlt, -⟩ := List.getElem?_eq_some_iff.1 hg
    rw [List.length_map]
    omega

/-! ### Normals -/

/-- The pairs in the file. -/
def qs {α : Type} (f : α → Bool) : List α → Nat → Nat → List (Int × Int)
  | [], _, _ => []
  | x :: l, n, j =>
    if f x then (((n + 1 : Nat) : Int), ((j + 1 : Nat) : Int)) :: qs f l (n + 1) (j + 1)
    else qs f l (n + 1) j

theorem readN_pairs {α : Type} (f : α → Bool) (l : List α) (n j : Nat) (t : List (Tok R)) :
    readN readPair (l.countP f) (pairs id (ints (markIdx f l n)) j ++ t) = some (qs f l n j) := by
  induction l generalizing n j with
  | nil => rfl
  | cons x l ih =>
    rw [markIdx, qs, List.countP_cons]
    by_cases hf : f x
    · simp only [hf, if_true]
      have : (ints ((n + 1) :: markIdx f l (n + 1)) : List (Tok R))
          = .int ((n + 1 : Nat) : Int) :: ints (markIdx f l (n + 1)) := rfl
      rw [this, pairs, readN]
      simp only [List.cons_append, readPair, ih, id]
    · simp only [hf, if_false, Nat.add_zero, Bool.false_eq_true]
      exact ih (n + 1) j

theorem setNormals_spec {α : Type} (f : α → Bool) (g : α → R × R × R) (e : α → Pt R)
    (N : List (R × R × R)) :
    ∀ (l : List α) (P : List (Pt R)) (j : Nat), N.drop j = (l.filter f).map g →
      setNormals N (P ++ l.map e) (qs f l P.length j)
        = some (P ++ l.map fun x => if f x then { e x with n := g x } else e x) := by
  intro l
  induction l with
  | nil => intro P j _; simp [qs, setNormals]
  | cons x l ih =>
    intro P j hj
    rw [qs]
    by_cases hf : f x
    · rw [List.filter_cons_of_pos hf, List.map_cons] at hj
      have hjl : j < N.length := by
        by_contra hc
        rw [List.drop_eq_nil_of_le (by omega)] at hj
        cases hj
      have hj' : N.drop (j + 1) = (l.filter f).map g := by
        rw [List.drop_eq_getElem_cons hjl] at hj
        exact (List.cons.inj hj).2
      have hgx : N.getD j (e x).n = g x := by
        rw [List.drop_eq_getElem_cons hjl] at hj
        rw [List.getD_eq_getElem?_getD, List.getElem?_eq_getElem hjl]
        exact (List.cons.inj hj).1
      have hih := ih (P ++ [{ e x with n := g x }]) (j + 1) hj'
      rw [List.length_append, List.append_assoc, List.append_assoc] at hih
      simp only [List.length_singleton, List.singleton_append] at hih
      rw [if_pos hf, setNormals, if_pos (by
        simp only [List.length_append, List.length_map, List.length_cons]; omega),
        if_neg (by omega), if_neg (by omega)]
      have e1 : (((P.length + 1 : Nat) : Int) - 1).toNat = P.length := by omega
      have e2 : (((j + 1 : Nat) : Int) - 1).toNat = j := by omega
      rw [e1, e2, List.map_cons, modify_mid, hgx, List.map_cons, if_pos hf]
      exact hih
    · rw [List.filter_cons_of_neg hf] at hj
      have hih := ih (P ++ [e x]) j hj
      rw [List.length_append, List.append_assoc, List.append_assoc] at hih
      simp only [List.length_singleton, List.singleton_append] at hih
      rw [if_neg hf, List.map_cons, List.map_cons, if_neg hf]
      exact hih

/-! ### Elements -/

theorem readVs_ints (vs : List Nat) (t : List (Tok R)) :
    readVs vs.length (ints vs ++ t) = some (vs, t) := by
  induction vs with
  | nil => rfl
  | cons v vs ih =>
    have : (ints (v :: vs) : List (Tok R)) = .int v :: ints vs := rfl
    rw [this, List.length_cons, List.cons_append, readVs, if_neg (by omega), ih]
    simp

theorem readElt_row (m : Mesh R) (a : Nat) (e : Elt) (he : EltOK m a e) (t : List (Tok R)) :
    readElt a (row m e ++ t) = some (eltOut m e, t) := by
  obtain ⟨h1, h2⟩ := he
  have hr : row m e = ints (e.v.map (num m)) ++ [Tok.int e.ref] := by
    unfold row ints
    rw [List.map_map]
    congr 1
    apply List.map_congr_left
    intro k hk
    obtain ⟨h3, p, hp, ho⟩ := h2 k hk
    simp [tmp_eq m k p h3 hp ho]
  have hl : (e.v.map (num m)).length = a := by simpa using h1
  rw [hr, List.append_assoc, readElt, ← hl, readVs_ints]
  rfl

theorem readElts_spec (m : Mesh R) (a : Nat) (l : List Elt) (h : Hdr R) (k : Kw)
    (he : ∀ e ∈ l, EltOK m a e) (hs : SecAt h k l.length (l.flatMap (row m))) :
    readElts a h k = some (l.map (eltOut m)) := by
  obtain ⟨h1, h2⟩ := hs
  unfold readElts
  rw [h1, Int.toNat_natCast]
  by_cases h0 : l.length = 0
  · obtain rfl := List.length_eq_zero_iff.1 h0
    rfl
  · obtain ⟨t, ht⟩ := h2 h0
    rw [ht]
    exact readN_flatMap _ _ _ _ _ fun e hm t => readElt_row m a e (he e hm) t

theorem orient_eq (neg : List (R × R × R) → Bool) (pr : R → R) (m : Mesh R) (e : Elt)
    (he : EltOK m 4 e) (f : Pt R × Nat → Pt R) (hf : ∀ q, (f q).c = pr3 pr q.1.c) :
    orient neg ((kept m).map f) (eltOut m e) = turned neg pr m e (eltOut m e) := by
  unfold orient turned
  have : ((eltOut m e).v.filterMap fun k => ((((kept m).map f)[k - 1]?).map fun p => p.c))
      = e.v.filterMap fun k => (m.pts[k - 1]?).map fun p => pr3 pr p.c := by
    unfold eltOut
    simp only [List.filterMap_map]
    apply List.filterMap_congr
    intro k hk
    obtain ⟨h1, p, hp, ho⟩ := he.2 k hk
    obtain ⟨hg, -⟩ := kept_get m k p h1 hp ho
    simp only [Function.comp, List.getElem?_map, hg, hp, Option.map_some, hf]
  rw [this]

end Mmg.Io
