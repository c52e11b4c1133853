/- Closed forms of the calls of the library interface. -/
import Verif.ApiModel
import Mathlib.Tactic.Ring
import Mathlib.Tactic.Linarith
import Mathlib.Tactic.FinCases
import Mathlib.Data.Fintype.Basic

namespace Mmg.Api

variable {K : Type}

section basic
variable {α : Type}

@[simp] theorem put_same (f : Nat → α) (k : Nat) (x : α) : put f k x k = x := by simp [put]

theorem put_ne (f : Nat → α) {k i : Nat} (x : α) (h : i ≠ k) : put f k x i = f i := by simp [put, h]

theorem has_bit (t : Tag) (i : Nat) (hi : i < 16) (mask : Tag) (hm : mask = BitVec.twoPow 16 i) :
    has t mask = t.getLsbD i := by
  subst hm
  unfold has
  rw [BitVec.and_twoPow]
  cases h : t.getLsbD i
  · simp
  · simp only [if_true, bne_iff_ne, ne_eq]
    intro hz
    have : (BitVec.twoPow 16 i).getLsbD i = (0 : BitVec 16).getLsbD i := by rw [hz]
    simp [hi] at this

theorem has_crn (t : Tag) : has t CRN = t.getLsbD 5 := has_bit t 5 (by decide) CRN (by decide)
theorem has_req (t : Tag) : has t REQ = t.getLsbD 2 := has_bit t 2 (by decide) REQ (by decide)
theorem has_geo (t : Tag) : has t GEO = t.getLsbD 1 := has_bit t 1 (by decide) GEO (by decide)

theorem set_bit (t : Tag) (i j : Nat) (hi : i < 16) (mask : Tag) (hm : mask = BitVec.twoPow 16 i) :
    (t ||| mask).getLsbD j = (t.getLsbD j || decide (j = i)) := by
  subst hm
  rw [BitVec.getLsbD_or, BitVec.getLsbD_twoPow]
  by_cases h : j = i
  · subst h; simp [hi]
  · have h' : i ≠ j := fun e => h e.symm
    simp [h, h']

theorem clear_bit (t : Tag) (i j : Nat) (mask : Tag) (hm : mask = BitVec.twoPow 16 i) :
    (t &&& ~~~mask).getLsbD j = (t.getLsbD j && !decide (j = i)) := by
  subst hm
  rw [BitVec.getLsbD_and, BitVec.getLsbD_not, BitVec.getLsbD_twoPow]
  by_cases hj : j < 16
  · by_cases h : j = i
    · subst h; simp [hj]
    · have h' : i ≠ j := fun e => h e.symm
      simp [h, h', hj]
  · have : t.getLsbD j = false := BitVec.getLsbD_of_ge _ _ (by omega)
    simp [this]

theorem or_crn (t : Tag) (j : Nat) : (t ||| CRN).getLsbD j = (t.getLsbD j || decide (j = 5)) :=
  set_bit t 5 j (by decide) _ (by decide)
theorem or_req (t : Tag) (j : Nat) : (t ||| REQ).getLsbD j = (t.getLsbD j || decide (j = 2)) :=
  set_bit t 2 j (by decide) _ (by decide)
theorem or_geo (t : Tag) (j : Nat) : (t ||| GEO).getLsbD j = (t.getLsbD j || decide (j = 1)) :=
  set_bit t 1 j (by decide) _ (by decide)
theorem or_ref (t : Tag) (j : Nat) : (t ||| REF).getLsbD j = (t.getLsbD j || decide (j = 0)) :=
  set_bit t 0 j (by decide) _ (by decide)
theorem or_par (t : Tag) (j : Nat) : (t ||| PARBDY).getLsbD j = (t.getLsbD j || decide (j = 13)) :=
  set_bit t 13 j (by decide) _ (by decide)
theorem cl_crn (t : Tag) (j : Nat) : (t &&& ~~~CRN).getLsbD j = (t.getLsbD j && !decide (j = 5)) :=
  clear_bit t 5 j _ (by decide)
theorem cl_req (t : Tag) (j : Nat) : (t &&& ~~~REQ).getLsbD j = (t.getLsbD j && !decide (j = 2)) :=
  clear_bit t 2 j _ (by decide)
theorem cl_geo (t : Tag) (j : Nat) : (t &&& ~~~GEO).getLsbD j = (t.getLsbD j && !decide (j = 1)) :=
  clear_bit t 1 j _ (by decide)
theorem cl_par (t : Tag) (j : Nat) : (t &&& ~~~PARBDY).getLsbD j = (t.getLsbD j && !decide (j = 13)) :=
  clear_bit t 13 j _ (by decide)
theorem cl_nul (t : Tag) (j : Nat) : (t &&& ~~~NUL).getLsbD j = (t.getLsbD j && !decide (j = 15)) :=
  clear_bit t 15 j _ (by decide)
theorem nul_bit (j : Nat) : NUL.getLsbD j = decide (j = 15) := by
  have := set_bit 0 15 j (by decide) NUL (by decide)
  simpa using this

end basic

/-! ### Marking vertices as used -/

/-- `m'` is `m` with the "unused" bit of the vertices of `l` cleared. -/
structure Used (m m' : Mesh K) (l : List Nat) : Prop where
  rest : m' = { m with point := m'.point }
  c : ∀ k, (m'.point k).c = (m.point k).c
  ref : ∀ k, (m'.point k).ref = (m.point k).ref
  tag : ∀ k j, (m'.point k).tag.getLsbD j = ((m.point k).tag.getLsbD j && !(decide (j = 15) && decide (k ∈ l)))

theorem unNuls_used {m m' : Mesh K} {l : List Nat} (h : unNuls m l = some m') : Used m m' l := by
  induction l generalizing m with
  | nil =>
    simp only [unNuls, Option.some.injEq] at h
    subst h
    exact ⟨rfl, fun _ => rfl, fun _ => rfl, by simp⟩
  | cons v l ih =>
    simp only [unNuls, Option.bind_eq_some_iff, unNul] at h
    obtain ⟨m1, h1, h2⟩ := h
    split at h1
    · simp only [Option.some.injEq] at h1
      have u := ih h2
      refine ⟨?_, ?_, ?_, ?_⟩
      · rw [u.rest, ← h1]
      · intro k
        rw [u.c k, ← h1]
        simp only [put]
        split
        · next e => subst e; rfl
        · rfl
      · intro k
        rw [u.ref k, ← h1]
        simp only [put]
        split
        · next e => subst e; rfl
        · rfl
      · intro k j
        rw [u.tag k j, ← h1]
        simp only [put]
        by_cases e : k = v
        · subst e
          simp only [if_true, cl_nul, List.mem_cons, true_or, decide_true, Bool.and_true]
          cases (m.point k).tag.getLsbD j <;> cases decide (j = 15) <;> simp
        · simp [e]
    · cases h1

theorem unNuls_some {m : Mesh K} {l : List Nat} (h : ∀ v ∈ l, v ≤ m.npmax) : ∃ m', unNuls m l = some m' := by
  induction l generalizing m with
  | nil => exact ⟨m, rfl⟩
  | cons v l ih =>
    simp only [unNuls, unNul, h v (by simp), if_true, Option.bind_some]
    exact ih (by intro w hw; exact h w (by simp [hw]))

/-! ### Loops -/

theorem forTo_put {α : Type} (g : Nat → α → α) (n : Nat) (f : Nat → α) :
    forTo (fun i f => put f i (g i (f i))) n f = fun i => if 1 ≤ i ∧ i ≤ n then g i (f i) else f i := by
  induction n with
  | zero => funext i; simp only [forTo]; rw [if_neg (by omega)]
  | succ n ih =>
    simp only [forTo, ih]
    funext i
    simp only [put]
    by_cases h : i = n + 1
    · subst h
      simp
    · by_cases h2 : 1 ≤ i ∧ i ≤ n
      · rw [if_neg h, if_pos h2, if_pos (by omega)]
      · rw [if_neg h, if_neg h2, if_neg (by omega)]

theorem forTo_lift {σ α : Type} (get : σ → α) (set : σ → α → σ) (f : Nat → α → α)
    (h1 : ∀ s a, get (set s a) = a) (h2 : ∀ s a b, set (set s a) b = set s b) (h3 : ∀ s, set s (get s) = s)
    (n : Nat) (s : σ) :
    forTo (fun i s => set s (f i (get s))) n s = set s (forTo f n (get s)) := by
  induction n with
  | zero => simp only [forTo, h3]
  | succ n ih => simp only [forTo, ih, h1, h2]

theorem forTo_lift_put {σ α : Type} (get : σ → Nat → α) (set : σ → (Nat → α) → σ) (g : Nat → α → α)
    (h1 : ∀ s a, get (set s a) = a) (h2 : ∀ s a b, set (set s a) b = set s b) (h3 : ∀ s, set s (get s) = s)
    (n : Nat) (s : σ) :
    forTo (fun i s => set s (put (get s) i (g i (get s i)))) n s =
      set s (fun i => if 1 ≤ i ∧ i ≤ n then g i (get s i) else get s i) := by
  rw [← forTo_put g n (get s)]
  exact forTo_lift get set (fun i f => put f i (g i (f i))) h1 h2 h3 n s

theorem setVertices_eq (m : Mesh K) (v : Nat → K) (r : Option (Nat → Int)) :
    setVertices m v r = { m with
      point := fun i => if 1 ≤ i ∧ i ≤ m.np then
      ⟨![v ((i-1)*3), v ((i-1)*3+1), v ((i-1)*3+2)], pickRef r i (m.point i).ref, NUL⟩
      else m.point i } := by
  exact forTo_lift_put (fun m : Mesh K => m.point) (fun m p => { m with point := p })
    (fun i p => (⟨![v ((i-1)*3), v ((i-1)*3+1), v ((i-1)*3+2)],
      pickRef r i p.ref, NUL⟩ : Point K))
    (fun _ _ => rfl) (fun _ _ _ => rfl) (fun _ => rfl) m.np m

theorem setTriangles_eq (m : Mesh K) (v : Nat → Nat) (r : Option (Nat → Int)) :
    setTriangles m v r = { m with
      tria := fun i => if 1 ≤ i ∧ i ≤ m.nt then
      ⟨![v ((i-1)*3), v ((i-1)*3+1), v ((i-1)*3+2)], pickRef r i (m.tria i).ref,
        (m.tria i).tag⟩
      else m.tria i } := by
  exact forTo_lift_put (fun m : Mesh K => m.tria) (fun m p => { m with tria := p })
    (fun i p => (⟨![v ((i-1)*3), v ((i-1)*3+1), v ((i-1)*3+2)],
      pickRef r i p.ref, p.tag⟩ : Face 3))
    (fun _ _ => rfl) (fun _ _ _ => rfl) (fun _ => rfl) m.nt m

theorem setQuadrilaterals_eq (m : Mesh K) (v : Nat → Nat) (r : Option (Nat → Int)) :
    setQuadrilaterals m v r = { m with
      quadra := fun i => if 1 ≤ i ∧ i ≤ m.nquad then
      ⟨![v ((i-1)*4), v ((i-1)*4+1), v ((i-1)*4+2), v ((i-1)*4+3)],
        pickRef r i (m.quadra i).ref, (m.quadra i).tag⟩
      else m.quadra i } := by
  exact forTo_lift_put (fun m : Mesh K => m.quadra) (fun m p => { m with quadra := p })
    (fun i p => (⟨![v ((i-1)*4), v ((i-1)*4+1), v ((i-1)*4+2), v ((i-1)*4+3)],
      pickRef r i p.ref, p.tag⟩ : Face 4))
    (fun _ _ => rfl) (fun _ _ _ => rfl) (fun _ => rfl) m.nquad m

theorem setEdges_eq (m : Mesh K) (v : Nat → Nat) (r : Option (Nat → Int)) :
    setEdges m v r = { m with
      edge := fun i => if 1 ≤ i ∧ i ≤ m.na then
      ⟨![v ((i-1)*2), v ((i-1)*2+1)],
        pickRef r i (m.edge i).ref, (m.edge i).tag ||| REF⟩
      else m.edge i } := by
  exact forTo_lift_put (fun m : Mesh K => m.edge) (fun m p => { m with edge := p })
    (fun i p => (⟨![v ((i-1)*2), v ((i-1)*2+1)],
      pickRef r i p.ref, p.tag ||| REF⟩ : Elt 2))
    (fun _ _ => rfl) (fun _ _ _ => rfl) (fun _ => rfl) m.na m

/-- What any call that only touches elements does to the vertices: coordinates, references and all bits
except "unused" are kept. -/
structure SameV (m m' : Mesh K) : Prop where
  c : ∀ k, (m'.point k).c = (m.point k).c
  ref : ∀ k, (m'.point k).ref = (m.point k).ref
  tag : ∀ k j, j ≠ 15 → (m'.point k).tag.getLsbD j = (m.point k).tag.getLsbD j

theorem SameV.refl (m : Mesh K) : SameV m m := ⟨fun _ => rfl, fun _ => rfl, fun _ _ _ => rfl⟩

theorem SameV.trans {a b c : Mesh K} (h : SameV a b) (g : SameV b c) : SameV a c :=
  ⟨fun k => (g.c k).trans (h.c k), fun k => (g.ref k).trans (h.ref k),
    fun k j hj => (g.tag k j hj).trans (h.tag k j hj)⟩

theorem SameV.of_point {m m' : Mesh K} (h : m'.point = m.point) : SameV m m' := by
  refine ⟨?_, ?_, ?_⟩ <;> simp [h]

theorem Used.same {m m' : Mesh K} {l : List Nat} (h : Used m m' l) : SameV m m' :=
  ⟨h.c, h.ref, by intro k j hj; simp [h.tag k j, hj]⟩

theorem setPrisms_spec (m m' : Mesh K) (v : Nat → Nat) (r : Option (Nat → Int))
    (h : setPrisms m v r = some m') :
    m' = { m with
      point := m'.point
      prism := fun i => if 1 ≤ i ∧ i ≤ m.nprism then
        ⟨![v ((i-1)*6), v ((i-1)*6+1), v ((i-1)*6+2), v ((i-1)*6+3), v ((i-1)*6+4), v ((i-1)*6+5)],
          pickRef r i (m.prism i).ref, (m.prism i).tag⟩
        else m.prism i } ∧ SameV m m' := by
  have key : ∀ n (m' : Mesh K),
      forTo (fun i om => Option.bind om (setPrismsBody v r i)) n (some m) = some m' →
      m' = { m with
        point := m'.point
        prism := fun i => if 1 ≤ i ∧ i ≤ n then
          ⟨![v ((i-1)*6), v ((i-1)*6+1), v ((i-1)*6+2), v ((i-1)*6+3), v ((i-1)*6+4), v ((i-1)*6+5)],
            pickRef r i (m.prism i).ref, (m.prism i).tag⟩
          else m.prism i } ∧ SameV m m' := by
    intro n
    induction n with
    | zero =>
      intro m' h
      simp only [forTo, Option.some.injEq] at h
      subst h
      refine ⟨?_, SameV.refl _⟩
      have : (fun i => if 1 ≤ i ∧ i ≤ 0 then
          (⟨![v ((i-1)*6), v ((i-1)*6+1), v ((i-1)*6+2), v ((i-1)*6+3), v ((i-1)*6+4), v ((i-1)*6+5)],
            pickRef r i (m.prism i).ref, (m.prism i).tag⟩ : Elt 6)
          else m.prism i) = m.prism := by
        funext i; rw [if_neg (by omega)]
      rw [this]
    | succ n ih =>
      intro m' h
      simp only [forTo, Option.bind_eq_some_iff] at h
      obtain ⟨m1, h1, h2⟩ := h
      obtain ⟨e1, s1⟩ := ih m1 h1
      have u := unNuls_used h2
      have s2 : SameV m1 m' := ⟨u.same.c, u.same.ref, u.same.tag⟩
      refine ⟨?_, s1.trans s2⟩
      have hp : m1.prism = fun i => if 1 ≤ i ∧ i ≤ n then
          ⟨![v ((i-1)*6), v ((i-1)*6+1), v ((i-1)*6+2), v ((i-1)*6+3), v ((i-1)*6+4), v ((i-1)*6+5)],
            pickRef r i (m.prism i).ref, (m.prism i).tag⟩
          else m.prism i := by rw [e1]
      rw [u.rest]
      have e2 : m1 = { m with point := m1.point, prism := m1.prism } := by
        rw [e1]
      rw [e2]
      simp only [Mesh.mk.injEq, true_and, and_true]
      funext i
      simp only [put, hp]
      by_cases h : i = n + 1
      · subst h
        simp
      · by_cases h2 : 1 ≤ i ∧ i ≤ n
        · rw [if_neg h, if_pos h2, if_pos (by omega)]
        · rw [if_neg h, if_neg h2, if_neg (by omega)]
  exact key m.nprism m' h

/-! ### Tetrahedra -/

section
variable [CommRing K] [LinearOrder K]

omit [LinearOrder K] in
theorem orvol_swap (p : Nat → Point K) (v : Fin 4 → Nat) :
    orvol p ![v 0, v 1, v 3, v 2] = - orvol p v := by
  simp [orvol, det4pt, det3pt1vec]
  ring

omit [LinearOrder K] in
theorem orvol_same {m m' : Mesh K} (h : SameV m m') (v : Fin 4 → Nat) : orvol m'.point v = orvol m.point v := by
  simp only [orvol, h.c]

/-- Everything `orient` does. -/
theorem orient_spec {eps : K} {m m' : Mesh K} {i : Nat} {ok turned : Bool}
    (h : orient eps m i = some (m', ok, turned)) :
    SameV m m' ∧ (∃ l, Used m { m with point := m'.point } l ∧ ∀ j, (m.tetra i).v j ∈ l) ∧
    (ok = false ↔ |orvol m.point (m.tetra i).v| ≤ eps) ∧
    (turned = true ↔ eps < |orvol m.point (m.tetra i).v| ∧ orvol m.point (m.tetra i).v < 0) ∧
    m' = { m with
      point := m'.point
      tetra := if turned then put m.tetra i { m.tetra i with
        v := ![(m.tetra i).v 0, (m.tetra i).v 1, (m.tetra i).v 3, (m.tetra i).v 2] } else m.tetra } := by
  unfold orient at h
  simp only at h
  split at h
  · cases h
  · next m1 h1 =>
    have u := unNuls_used h1
    have hv : ∀ v, orvol m1.point v = orvol m.point v := orvol_same u.same
    have ht : m1.tetra = m.tetra := by rw [u.rest]
    rw [hv] at h
    have hl : ∃ l, Used m { m with point := m1.point } l ∧ ∀ j, (m.tetra i).v j ∈ l := by
      refine ⟨_, ⟨rfl, u.c, u.ref, u.tag⟩, ?_⟩
      intro j
      fin_cases j <;> simp
    split at h
    · next hle =>
      simp only [Option.some.injEq, Prod.mk.injEq] at h
      obtain ⟨rfl, rfl, rfl⟩ := h
      refine ⟨u.same, hl, by simp [hle], ?_, ?_⟩
      · simp; intro hlt; exact absurd hle (not_le.2 hlt)
      · rw [u.rest]; simp
    · next hle =>
      split at h
      · next hneg =>
        simp only [Option.some.injEq, Prod.mk.injEq] at h
        obtain ⟨rfl, rfl, rfl⟩ := h
        refine ⟨⟨u.same.c, u.same.ref, u.same.tag⟩, hl, by simp [hle], by simp [not_le.1 hle, hneg], ?_⟩
        simp only [if_true]
        rw [ht, u.rest]
      · next hneg =>
        simp only [Option.some.injEq, Prod.mk.injEq] at h
        obtain ⟨rfl, rfl, rfl⟩ := h
        refine ⟨u.same, hl, by simp [hle], by simp [hneg], ?_⟩
        rw [u.rest]; simp

/-- The vertices given for element `j` in a flat array. -/
def given4 (t : Nat → Nat) (j : Nat) : Fin 4 → Nat :=
  ![t ((j - 1) * 4), t ((j - 1) * 4 + 1), t ((j - 1) * 4 + 2), t ((j - 1) * 4 + 3)]

/-- The element `v` with its last two vertices exchanged. -/
def exchange (v : Fin 4 → Nat) : Fin 4 → Nat := ![v 0, v 1, v 3, v 2]

/-- Everything the loop of `MMG3D_Set_tetrahedra` does from element `i`, `n` elements left. -/
structure TLoop (eps : K) (t : Nat → Nat) (r : Option (Nat → Int)) (n i : Nat) (m m' : Mesh K) (ok : Bool) :
    Prop where
  same : SameV m m'
  rest : m' = { m with point := m'.point, tetra := m'.tetra, xp := m'.xp }
  all : ok = true ↔ ∀ j, i ≤ j → j < i + n → eps < |orvol m.point (given4 t j)|
  out : ∀ j, j < i ∨ i + n ≤ j → m'.tetra j = m.tetra j
  done : ∀ j, i ≤ j → j < i + n → (∀ l, i ≤ l → l < j → eps < |orvol m.point (given4 t l)|) →
    m'.tetra j = ⟨if eps < |orvol m.point (given4 t j)| ∧ orvol m.point (given4 t j) < 0
      then exchange (given4 t j) else given4 t j,
      pickRef (r.map fun r n => ((r n).natAbs : Int)) j (m.tetra j).ref, (m.tetra j).tag⟩
  skip : ∀ j l, i ≤ l → l < j → j < i + n → |orvol m.point (given4 t l)| ≤ eps → m'.tetra j = m.tetra j
  xp : ok = true → m'.xp = m.xp + ((List.range n).filter
    (fun d => decide (orvol m.point (given4 t (i + d)) < 0))).length
  used : ∀ j, i ≤ j → j < i + n → (∀ l, i ≤ l → l < j → eps < |orvol m.point (given4 t l)|) →
    ∀ c, ((m'.point (given4 t j c)).tag.getLsbD 15) = false
  mono : ∀ k, (m.point k).tag.getLsbD 15 = false → (m'.point k).tag.getLsbD 15 = false

theorem setTetrahedraLoop_spec {eps : K} {t : Nat → Nat} {r : Option (Nat → Int)} {n i : Nat}
    {m m' : Mesh K} {ok : Bool} (h : setTetrahedraLoop eps t r n i m = some (m', ok)) :
    TLoop eps t r n i m m' ok := by
  induction n generalizing i m with
  | zero =>
    simp only [setTetrahedraLoop, Option.some.injEq, Prod.mk.injEq] at h
    obtain ⟨rfl, rfl⟩ := h
    exact ⟨SameV.refl _, rfl, by simp; omega, fun _ _ => rfl, by omega, by omega, by simp, by omega,
      fun _ h => h⟩
  | succ n ih =>
    simp only [setTetrahedraLoop] at h
    set m1 : Mesh K := { m with tetra := put m.tetra i <|
      ⟨given4 t i, pickRef (r.map fun r n => ((r n).natAbs : Int)) i (m.tetra i).ref, (m.tetra i).tag⟩ } with hm1
    have hg : (m1.tetra i).v = given4 t i := by simp [hm1]
    have hs1 : SameV m m1 := SameV.of_point rfl
    change (match orient eps m1 i with
      | none => none
      | some (m, false, _) => some (m, false)
      | some (m, true, true) => setTetrahedraLoop eps t r n (i + 1) { m with xp := m.xp + 1 }
      | some (m, true, false) => setTetrahedraLoop eps t r n (i + 1) m) = some (m', ok) at h
    have hp1 : m1.point = m.point := rfl
    cases ho : orient eps m1 i with
    | none => rw [ho] at h; cases h
    | some q =>
      obtain ⟨m2, b, tn⟩ := q
      rw [ho] at h
      obtain ⟨s2, ⟨l, hl, hlv⟩, hok, htn, hm2⟩ := orient_spec ho
      rw [hg, hp1] at hok htn
      rw [hg] at hm2
      have s02 : SameV m m2 := hs1.trans s2
      have hu : ∀ c, (m2.point (given4 t i c)).tag.getLsbD 15 = false := by
        intro c
        have := hl.tag (given4 t i c) 15
        rw [← hg] at this ⊢
        rw [this]
        simp [hlv c]
      have hmono : ∀ k, (m.point k).tag.getLsbD 15 = false → (m2.point k).tag.getLsbD 15 = false := by
        intro k hk
        have := hl.tag k 15
        rw [this, hp1, hk]; simp
      cases b with
      | false =>
        simp only [Option.some.injEq, Prod.mk.injEq] at h
        obtain ⟨rfl, rfl⟩ := h
        have hdeg := hok.1 rfl
        have hnt : tn = false := by
          cases tn with
          | false => rfl
          | true => exact absurd hdeg (not_le.2 (htn.1 rfl).1)
        subst hnt
        have htt : m2.tetra = m1.tetra := by rw [hm2]; simp
        refine ⟨s02, ?_, ?_, ?_, ?_, ?_, by simp, ?_, hmono⟩
        · rw [hm2]
        · simp only [Bool.false_eq_true, false_iff, not_forall]
          exact ⟨i, le_refl _, by omega, not_lt.2 hdeg⟩
        · intro j hj
          rw [htt, hm1]
          exact put_ne _ _ (by omega)
        · intro j hj1 hj2 hj3
          by_cases e : j = i
          · subst e
            rw [htt, hm1]
            simp [not_lt.2 hdeg]
          · exact absurd hdeg (not_le.2 (hj3 i (le_refl _) (by omega)))
        · intro j l h1 h2 h3 h4
          rw [htt, hm1]
          exact put_ne _ _ (by omega)
        · intro j hj1 hj2 hj3
          by_cases e : j = i
          · subst e; exact hu
          · exact absurd hdeg (not_le.2 (hj3 i (le_refl _) (by omega)))
      | true =>
        have hnd : eps < |orvol m.point (given4 t i)| := by
          by_contra hc
          have := hok.2 (not_lt.1 hc)
          cases this
        -- the state from which the loop goes on
        obtain ⟨m3, hm3, hpt3, htt3, hxp3, hr3, hloop⟩ : ∃ m3 : Mesh K, True ∧ m3.point = m2.point ∧
            m3.tetra = m2.tetra ∧ m3.xp = m2.xp + (if tn then 1 else 0) ∧
            m3 = { m2 with xp := m3.xp } ∧ setTetrahedraLoop eps t r n (i + 1) m3 = some (m', ok) := by
          cases tn with
          | true => exact ⟨{ m2 with xp := m2.xp + 1 }, trivial, rfl, rfl, rfl, rfl, h⟩
          | false => exact ⟨m2, trivial, rfl, rfl, rfl, rfl, h⟩
        have T := ih hloop
        have s23 : SameV m2 m3 := SameV.of_point hpt3
        have s03 := s02.trans s23
        have hv : ∀ v, orvol m3.point v = orvol m.point v := orvol_same s03
        have ht2 : m2.tetra = if tn then put m1.tetra i { m1.tetra i with v := exchange (given4 t i) }
            else m1.tetra := by
          rw [hm2]; rfl
        have hti : m3.tetra i = ⟨if eps < |orvol m.point (given4 t i)| ∧ orvol m.point (given4 t i) < 0
            then exchange (given4 t i) else given4 t i,
            pickRef (r.map fun r n => ((r n).natAbs : Int)) i (m.tetra i).ref, (m.tetra i).tag⟩ := by
          rw [htt3, ht2]
          cases tn with
          | true =>
            rw [if_pos (htn.1 rfl)]
            simp [hm1]
          | false =>
            have hc : ¬ (eps < |orvol m.point (given4 t i)| ∧ orvol m.point (given4 t i) < 0) := fun hc => by
              have := htn.2 hc; cases this
            rw [if_neg hc]
            simp [hm1]
        have htj : ∀ j, j ≠ i → m3.tetra j = m.tetra j := by
          intro j hj
          rw [htt3, ht2]
          cases tn with
          | true => simp [put_ne _ _ hj, hm1]
          | false => simp [put_ne _ _ hj, hm1]
        have h3m : m3 = { m with point := m3.point, tetra := m3.tetra, xp := m3.xp } := by
          rw [hr3, hm2]
        refine ⟨s03.trans T.same, ?_, ?_, ?_, ?_, ?_, ?_, ?_, ?_⟩
        · rw [T.rest, h3m]
        · rw [T.all]
          simp only [hv]
          constructor
          · intro hh j h1 h2
            by_cases e : j = i
            · subst e; exact hnd
            · exact hh j (by omega) (by omega)
          · intro hh j h1 h2
            exact hh j (by omega) (by omega)
        · intro j hj
          rw [T.out j (by omega), htj j (by omega)]
        · intro j h1 h2 h3
          by_cases e : j = i
          · subst e
            rw [T.out j (by omega), hti]
          · have := T.done j (by omega) (by omega) (by intro l a b; rw [hv]; exact h3 l (by omega) b)
            rw [this, hv, htj j e]
        · intro j l h1 h2 h3 h4
          by_cases e : l = i
          · subst e; exact absurd h4 (not_le.2 hnd)
          · rw [T.skip j l (by omega) h2 (by omega) (by rw [hv]; exact h4), htj j (by omega)]
        · intro hk
          rw [T.xp hk, hxp3]
          have hx2 : m2.xp = m.xp := by rw [hm2]
          rw [hx2, List.range_succ_eq_map, List.filter_cons, List.filter_map, Nat.add_zero]
          simp only [hv]
          have hfun : (fun d => decide (orvol m.point (given4 t (i + 1 + d)) < 0)) =
              ((fun d => decide (orvol m.point (given4 t (i + d)) < 0)) ∘ Nat.succ) := by
            funext d
            simp only [Function.comp_apply]
            rw [show i + 1 + d = i + d.succ by omega]
          rw [hfun]
          cases tn with
          | true =>
            simp [(htn.1 rfl).2]
            omega
          | false =>
            have : ¬ orvol m.point (given4 t i) < 0 := fun hc => by
              have := htn.2 ⟨hnd, hc⟩; cases this
            simp [this]
        · intro j h1 h2 h3 c
          by_cases e : j = i
          · subst e
            apply T.mono
            rw [hpt3]; exact hu c
          · exact T.used j (by omega) (by omega) (by intro l a b; rw [hv]; exact h3 l (by omega) b) c
        · intro k hk
          apply T.mono
          rw [hpt3]; exact hmono k hk

/-- Everything `MMG3D_Set_tetrahedron` does. -/
theorem setTetrahedron_spec {eps : K} {m m' : Mesh K} {v : Fin 4 → Nat} {ref pos : Int} {ok : Bool}
    (h : setTetrahedron eps m v ref pos = some (m', ok)) (hf : m.ne ≤ m.nemax) :
    (m' = m ∧ ok = false ∧ (m.ne = 0 ∨ (m.ne : Int) < pos)) ∨
    (m.ne ≠ 0 ∧ 0 ≤ pos ∧ pos ≤ m.ne ∧ SameV m m' ∧
      m' = { m with
        point := m'.point
        tetra := put m.tetra pos.toNat
          ⟨if eps < |orvol m.point v| ∧ orvol m.point v < 0 then exchange v else v, ref.natAbs,
            (m.tetra pos.toNat).tag⟩
        xt := m.xt + if eps < |orvol m.point v| ∧ orvol m.point v < 0 then 1 else 0 } ∧
      (ok = true ↔ eps < |orvol m.point v|) ∧ ∀ c, (m'.point (v c)).tag.getLsbD 15 = false) := by
  unfold setTetrahedron at h
  split at h
  · next h0 =>
    simp only [Option.some.injEq, Prod.mk.injEq] at h
    obtain ⟨rfl, rfl⟩ := h
    exact Or.inl ⟨rfl, rfl, Or.inl h0⟩
  · next h0 =>
    split at h
    · next h1 =>
      simp only [Option.some.injEq, Prod.mk.injEq] at h
      obtain ⟨rfl, rfl⟩ := h
      exact Or.inl ⟨rfl, rfl, Or.inr (by omega)⟩
    · split at h
      · next h1 =>
        simp only [Option.some.injEq, Prod.mk.injEq] at h
        obtain ⟨rfl, rfl⟩ := h
        exact Or.inl ⟨rfl, rfl, Or.inr h1⟩
      · next h1 =>
        split at h
        · cases h
        · next h2 =>
          right
          refine ⟨h0, by omega, by omega, ?_⟩
          simp only at h
          set k := pos.toNat with hk
          set m1 : Mesh K := { m with tetra := put m.tetra k { m.tetra k with v := v, ref := ref.natAbs } } with hm1
          have hg : (m1.tetra k).v = v := by simp [hm1]
          have hp1 : m1.point = m.point := rfl
          cases ho : orient eps m1 k with
          | none => rw [ho] at h; cases h
          | some q =>
            obtain ⟨m2, b, tn⟩ := q
            rw [ho] at h
            obtain ⟨s2, ⟨l, hl, hlv⟩, hok, htn, hm2⟩ := orient_spec ho
            rw [hg, hp1] at hok htn
            rw [hg] at hm2
            have s02 : SameV m m2 := ⟨s2.c, s2.ref, s2.tag⟩
            have hu : ∀ c, (m2.point (v c)).tag.getLsbD 15 = false := by
              intro c
              have := hl.tag (v c) 15
              rw [this]
              have h' := hlv c
              rw [hg] at h'
              simp [h']
            cases b with
            | false =>
              simp only [Option.some.injEq, Prod.mk.injEq] at h
              obtain ⟨rfl, rfl⟩ := h
              have hdeg := hok.1 rfl
              have hc : ¬ (eps < |orvol m.point v| ∧ orvol m.point v < 0) := fun hc => absurd hdeg (not_le.2 hc.1)
              have hnt : tn = false := by
                cases tn with
                | false => rfl
                | true => exact absurd (htn.1 rfl) hc
              subst hnt
              refine ⟨s02, ?_, by simp [hdeg], hu⟩
              rw [if_neg hc, if_neg hc, hm2]
              simp [hm1]
            | true =>
              have hnd : eps < |orvol m.point v| := by
                by_contra hc
                have := hok.2 (not_lt.1 hc)
                cases this
              cases tn with
              | true =>
                simp only [Option.some.injEq, Prod.mk.injEq] at h
                obtain ⟨rfl, rfl⟩ := h
                refine ⟨⟨s02.c, s02.ref, s02.tag⟩, ?_, by simp [hnd], hu⟩
                rw [if_pos (htn.1 rfl), if_pos (htn.1 rfl), hm2]
                simp only [if_true, hm1, Mesh.mk.injEq, true_and, and_true]
                funext i
                simp only [put]
                split
                · next e => subst e; simp [exchange]
                · rfl
              | false =>
                simp only [Option.some.injEq, Prod.mk.injEq] at h
                obtain ⟨rfl, rfl⟩ := h
                have hc : ¬ (eps < |orvol m.point v| ∧ orvol m.point v < 0) := fun hc => by
                  have := htn.2 hc; cases this
                refine ⟨s02, ?_, by simp [hnd], hu⟩
                rw [if_neg hc, if_neg hc, hm2]
                simp [hm1]

end

end Mmg.Api
