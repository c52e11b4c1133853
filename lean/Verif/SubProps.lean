/-
Properties C39 and C40: keeping only one sub-domain of a mesh. The same text covers the three libraries: triangles
(`n = 3`) and quadrilaterals for Mmg2d and Mmgs, tetrahedra (`n = 4`) and prisms for Mmg3d.
-/
import Verif.Util
import Mathlib.Data.Nat.Basic

namespace Mmg.Sub

/-! ### Model -/

/-- A mesh. `v k i` is vertex `i` of element `k`, `adja k i` is the entry `mesh->adja[n*(k-1)+1+i]`; `q k i` are the
vertices of the other kind of elements (quadrilaterals or prisms); `nul` and `req` are the bits `MG_NUL` and `MG_REQ`
of the point tags, `flag` is `flag != 0`. `hasAdja` tells whether the adjacency table is allocated. -/
structure Mesh where
  np : Nat
  nul : Nat → Bool
  req : Nat → Bool
  flag : Nat → Bool
  npnil : Nat
  ne : Nat
  v : Nat → Nat → Nat
  ref : Nat → Int
  nenil : Nat
  hasAdja : Bool
  adja : Nat → Nat → Nat
  nq : Nat
  q : Nat → Nat → Nat

/-- `while ( !OK(n) && n ) n--;` -/
def trim (ok : Nat → Bool) : Nat → Nat
  | 0 => 0
  | k + 1 => if ok (k + 1) then k + 1 else trim ok k

/-- `MG_EOK`. -/
def eok (m : Mesh) (k : Nat) : Bool := 0 < m.v k 0

def upd {β : Type} (f : Nat → β) (k : Nat) (x : β) : Nat → β := fun j => if j = k then x else f j

/-- A loop `for (k=a; k<a+c; k++)` over a fixed range. -/
def forRange (body : Nat → Mesh → Mesh) : Nat → Nat → Mesh → Mesh
  | _, 0, m => m
  | a, c + 1, m => forRange body (a + 1) c (body a m)

/-- `MMG2D_delElt` (mmg2d/zaldy_2d.c), `MMGS_delElt` (mmgs/zaldy_s.c), `MMG3D_delElt` (mmg3d/zaldy_3d.c). -/
def delElt (n : Nat) (m : Mesh) (k : Nat) : Mesh :=
  if eok m k then
    let v' := upd m.v k (fun i => if i = n - 1 then m.nenil else 0)
    { m with
      v := v'
      ref := upd m.ref k 0
      adja := if m.hasAdja then upd m.adja k (fun _ => 0) else m.adja
      nenil := k
      ne := if k = m.ne then trim (fun j => 0 < v' j 0) m.ne else m.ne }
  else m

/-- `MMG2D_delPt`, `MMGS_delPt`, `MMG3D_delPt` (zaldy files; the boundary data of the point is left out). -/
def delPt (m : Mesh) (k : Nat) : Mesh :=
  let nul' := upd m.nul k true
  { m with
    nul := nul'
    req := upd m.req k false
    flag := upd m.flag k false
    npnil := k
    np := if k = m.np then trim (fun j => !nul' j) m.np else m.np }

/-- Body of `MMG5_mark_verticesAsUnused`, common/tools.c:994-1008. -/
def unuseBody (k : Nat) (m : Mesh) : Mesh :=
  if m.nul k then m else { m with flag := upd m.flag k false, nul := upd m.nul k true }

/-- `MMG5_mark_verticesAsUnused`. -/
def unuse (m : Mesh) : Mesh := forRange unuseBody 1 m.np m

/-- `mesh->point[pt->v[i]].flag = 1` for the `n` vertices, common/tools.c:1085-1087, mmg3d/tools_3d.c:1356-1359. -/
def seeVertices (k : Nat) (n : Nat) (m : Mesh) : Mesh :=
  forRange (fun i m => { m with flag := upd m.flag (m.v k i) true }) 0 n m

/-- The loop on the faces of the element to delete, common/tools.c:1093-1104, mmg3d/tools_3d.c:1365-1376: the entry
of each neighbour that points to this element is reset. -/
def unlink (k : Nat) (n : Nat) (m : Mesh) : Mesh :=
  forRange (fun i m =>
    let a := m.adja k i
    if a = 0 then m
    else { m with adja := upd m.adja (a / n) (upd (m.adja (a / n)) (a % n) 0) }) 0 n m

/-- One turn of the loop of `MMG5_keep_subdomainElts`, common/tools.c:1078-1109, and of `MMG3D_keep_subdomainElts`,
mmg3d/tools_3d.c:1350-1381. -/
def keepBody (n : Nat) (nsd : Int) (k : Nat) (m : Mesh) : Mesh :=
  if eok m k then
    let m1 := seeVertices k n m
    if m1.ref k = nsd then m1
    else delElt n (if m1.hasAdja then unlink k n m1 else m1) k
  else m

/-- `for ( k=1 ; k <= mesh->ne ; k++ )`: the bound is read again at each turn. -/
def keepLoop (n : Nat) (nsd : Int) : Nat → Nat → Mesh → Mesh
  | 0, _, m => m
  | fuel + 1, k, m => if k ≤ m.ne then keepLoop n nsd fuel (k + 1) (keepBody n nsd k m) else m

/-- `MMG5_keep_subdomainElts`, `MMG3D_keep_subdomainElts`. The number of turns is at most the initial count. -/
def keep (n : Nat) (nsd : Int) (m : Mesh) : Mesh := keepLoop n nsd m.ne 1 m

/-- `ppt->tag &= ~MG_NUL` for a required point that no element has seen, common/tools.c:1026-1033. -/
def isolatedBody (k : Nat) (m : Mesh) : Mesh :=
  if m.flag k || !m.req k then m else { m with nul := upd m.nul k false }

/-- The vertices of element `k` (array `f` of `c` vertices) are marked as used, common/tools.c:1036-1054. -/
def useBody (f : Nat → Nat → Nat) (c : Nat) (k : Nat) (m : Mesh) : Mesh :=
  if 0 < f k 0 then forRange (fun i m => { m with nul := upd m.nul (f k i) false }) 0 c m else m

/-- `while ( !MG_VOK(&mesh->point[mesh->np]) && mesh->np ) delPt(mesh,mesh->np);` common/tools.c:1057-1059. -/
def cleanLoop : Nat → Mesh → Mesh
  | 0, m => m
  | fuel + 1, m => if m.nul m.np && m.np != 0 then cleanLoop fuel (delPt m m.np) else m

/-- `MMG5_mark_usedVertices`, common/tools.c:1018-1062 and `MMG3D_mark_usedVertices`, mmg3d/tools_3d.c:1291-1334. `c`
is the number of vertices of the other elements (4 or 6). -/
def markUsed (n c : Nat) (m : Mesh) : Mesh :=
  let m1 := forRange isolatedBody 1 m.np m
  let m2 := forRange (useBody m1.v n) 1 m1.ne m1
  let m3 := forRange (useBody m2.q c) 1 m2.nq m2
  cleanLoop m3.np m3

/-- `MMG2D_keep_only1Subdomain` (mmg2d/tools_2d.c:92-109), `MMGS_keep_only1Subdomain` (mmgs/gentools_s.c:161-178),
`MMG3D_keep_only1Subdomain` (mmg3d/tools_3d.c:1393-1410). -/
def keepOnly (n c : Nat) (nsd : Int) (m : Mesh) : Mesh :=
  if nsd = 0 then m else markUsed n c (keep n nsd (unuse m))

/-! ### Specification -/

/-- Element `k` belongs to the mesh. -/
def Alive (m : Mesh) (k : Nat) : Prop := 1 ≤ k ∧ k ≤ m.ne ∧ 0 < m.v k 0

/-- Vertex `p` belongs to the mesh. -/
def Valid (m : Mesh) (p : Nat) : Prop := 1 ≤ p ∧ p ≤ m.np ∧ m.nul p = false

/-- Some element uses vertex `p`. -/
def Used (n : Nat) (m : Mesh) (p : Nat) : Prop := ∃ k, Alive m k ∧ ∃ i, i < n ∧ m.v k i = p

/-- Some quadrilateral or prism uses vertex `p`. -/
def UsedQ (c : Nat) (m : Mesh) (p : Nat) : Prop := ∃ k, 1 ≤ k ∧ k ≤ m.nq ∧ 0 < m.q k 0 ∧ ∃ i, i < c ∧ m.q k i = p

/-- The neighbour links between elements are reciprocal: a link of face `i` of `k` is the code `n*k' + i'` of a face
of an element of the mesh whose own link comes back. -/
def Linked (n : Nat) (m : Mesh) : Prop :=
  ∀ k i, Alive m k → i < n → m.adja k i ≠ 0 →
    Alive m (m.adja k i / n) ∧ m.adja (m.adja k i / n) (m.adja k i % n) = n * k + i

/-! ### Lemmas on the loops -/

/-- Induction principle for fixed loops. -/
theorem forRange_inv {body : Nat → Mesh → Mesh} {P : Nat → Mesh → Prop}
    (hstep : ∀ k m, P k m → P (k + 1) (body k m)) (c a : Nat) (m : Mesh) (h : P a m) :
    P (a + c) (forRange body a c m) := by
  induction c generalizing a m with
  | zero => exact h
  | succ c ih =>
    have := ih (a + 1) (body a m) (hstep a m h)
    rw [Nat.add_assoc, Nat.add_comm 1 c] at this
    exact this

theorem forRange_inv_lt {body : Nat → Mesh → Mesh} {P : Nat → Mesh → Prop} (c a : Nat)
    (hstep : ∀ k m, a ≤ k → k < a + c → P k m → P (k + 1) (body k m)) (m : Mesh) (h : P a m) :
    P (a + c) (forRange body a c m) := by
  induction c generalizing a m with
  | zero => exact h
  | succ c ih =>
    have := ih (a + 1) (fun k m h1 h2 => hstep k m (by omega) (by omega)) (body a m)
      (hstep a m (by omega) (by omega) h)
    rw [Nat.add_assoc, Nat.add_comm 1 c] at this
    exact this

theorem trim_le (ok : Nat → Bool) (n : Nat) : trim ok n ≤ n := by
  induction n with
  | zero => simp [trim]
  | succ n ih => simp only [trim]; split <;> omega

theorem trim_above (ok : Nat → Bool) (n j : Nat) (h1 : trim ok n < j) (h2 : j ≤ n) : ok j = false := by
  induction n with
  | zero => omega
  | succ n ih =>
    simp only [trim] at h1
    split at h1
    · omega
    · next e =>
      by_cases hj : j = n + 1
      · subst hj; simpa using e
      · exact ih h1 (by omega)

theorem trim_ok (ok : Nat → Bool) (n : Nat) (h : trim ok n ≠ 0) : ok (trim ok n) = true := by
  induction n with
  | zero => simp [trim] at h
  | succ n ih =>
    simp only [trim] at h ⊢
    split
    · assumption
    · next e => rw [if_neg e] at h; exact ih h

/-- Fields other than the flags are not changed by `seeVertices`. -/
theorem see_spec (k n : Nat) (m : Mesh) :
    ∃ f, seeVertices k n m = { m with flag := f } ∧
      ∀ p, f p = true ↔ (m.flag p = true ∨ ∃ i, i < n ∧ m.v k i = p) := by
  unfold seeVertices
  have := forRange_inv_lt (P := fun i m' => ∃ f, m' = { m with flag := f } ∧
      ∀ p, f p = true ↔ (m.flag p = true ∨ ∃ j, j < i ∧ m.v k j = p))
    (body := fun i m => { m with flag := upd m.flag (m.v k i) true }) n 0 (by
      rintro i m' _ _ ⟨f, rfl, hf⟩
      refine ⟨_, rfl, ?_⟩
      intro p
      simp only [upd]
      by_cases hp : p = m.v k i
      · simp only [hp, if_true, true_iff]
        exact Or.inr ⟨i, by omega, rfl⟩
      · simp only [hp, if_false, hf p]
        constructor
        · rintro (h | ⟨j, hj, e⟩)
          · exact Or.inl h
          · exact Or.inr ⟨j, by omega, e⟩
        · rintro (h | ⟨j, hj, e⟩)
          · exact Or.inl h
          · by_cases hji : j = i
            · subst hji; exact absurd e.symm hp
            · exact Or.inr ⟨j, by omega, e⟩) m ⟨m.flag, rfl, by simp⟩
  simpa using this

theorem upd2 (A : Nat → Nat → Nat) (a b x j i : Nat) :
    upd A a (upd (A a) b x) j i = if j = a ∧ i = b then x else A j i := by
  unfold upd
  by_cases h1 : j = a
  · subst h1
    by_cases h2 : i = b <;> simp [h2]
  · simp [h1]

/-- What `unlink` does outside the row of the element itself. -/
theorem unlink_spec (k n : Nat) (hn : 0 < n) (m : Mesh)
    (hs : ∀ i, i < n → m.adja k i ≠ 0 → m.adja (m.adja k i / n) (m.adja k i % n) = n * k + i) :
    ∃ A, unlink k n m = { m with adja := A } ∧
      ∀ j, j ≠ k → ∀ i, A j i =
        if (∃ t, t < n ∧ m.adja k t ≠ 0 ∧ m.adja k t = n * j + i) ∧ i < n then 0 else m.adja j i := by
  have h := forRange_inv_lt (P := fun c m' => ∃ A, m' = { m with adja := A } ∧
      (∀ i, A k i = m.adja k i ∨ (A k i = 0 ∧ i < n ∧ m.adja k i / n = k)) ∧
      ∀ j, j ≠ k → ∀ i, A j i =
        if (∃ t, t < c ∧ m.adja k t ≠ 0 ∧ m.adja k t = n * j + i) ∧ i < n then 0 else m.adja j i)
    (body := fun i m =>
      let a := m.adja k i
      if a = 0 then m
      else { m with adja := upd m.adja (a / n) (upd (m.adja (a / n)) (a % n) 0) }) n 0 (by
      rintro c m' _ hc ⟨A, rfl, hk, hj⟩
      simp only [Nat.zero_add] at hc
      by_cases ha : A k c = 0
      · refine ⟨A, ?_, hk, ?_⟩
        · simp only [ha, if_true]
        · intro j hjk i
          rw [hj j hjk i]
          have hiff : (∃ t, t < c ∧ m.adja k t ≠ 0 ∧ m.adja k t = n * j + i) ∧ i < n ↔
              (∃ t, t < c + 1 ∧ m.adja k t ≠ 0 ∧ m.adja k t = n * j + i) ∧ i < n := by
            constructor
            · rintro ⟨⟨t, h1, h2⟩, h3⟩; exact ⟨⟨t, by omega, h2⟩, h3⟩
            · rintro ⟨⟨t, h1, h2, h3⟩, h4⟩
              refine ⟨⟨t, ?_, h2, h3⟩, h4⟩
              by_contra hx
              have : t = c := by omega
              subst this
              rcases hk t with e | ⟨_, _, e⟩
              · rw [ha] at e; exact h2 e.symm
              · rw [h3, Nat.mul_add_div hn, Nat.div_eq_of_lt h4] at e
                exact hjk (by simpa using e)
          by_cases hp : (∃ t, t < c ∧ m.adja k t ≠ 0 ∧ m.adja k t = n * j + i) ∧ i < n
          · rw [if_pos hp, if_pos (hiff.1 hp)]
          · rw [if_neg hp, if_neg (fun h => hp (hiff.2 h))]
      · have hAc : A k c = m.adja k c := by
          rcases hk c with e | ⟨e, _⟩
          · exact e
          · exact absurd e ha
        refine ⟨upd A (A k c / n) (upd (A (A k c / n)) (A k c % n) 0), ?_, ?_, ?_⟩
        · simp only [ha, if_false]
        · intro i
          by_cases h1 : k = A k c / n
          · by_cases h2 : i = A k c % n
            · right
              have hs' := hs c hc (by rw [← hAc]; exact ha)
              rw [← hAc, ← h1, ← h2] at hs'
              refine ⟨?_, ?_, ?_⟩
              · rw [upd2, if_pos ⟨h1, h2⟩]
              · rw [h2]; exact Nat.mod_lt _ hn
              · rw [hs', Nat.mul_add_div hn, Nat.div_eq_of_lt hc]; simp
            · have : upd A (A k c / n) (upd (A (A k c / n)) (A k c % n) 0) k i = A k i := by
                rw [upd2, if_neg (fun h => h2 h.2)]
              rw [this]; exact hk i
          · have : upd A (A k c / n) (upd (A (A k c / n)) (A k c % n) 0) k i = A k i := by
              rw [upd2, if_neg (fun h => h1 h.1)]
            rw [this]; exact hk i
        · intro j hjk i
          have hdm := Nat.div_add_mod (m.adja k c) n
          by_cases hp : (∃ t, t < c ∧ m.adja k t ≠ 0 ∧ m.adja k t = n * j + i) ∧ i < n
          · have hp' : (∃ t, t < c + 1 ∧ m.adja k t ≠ 0 ∧ m.adja k t = n * j + i) ∧ i < n := by
              obtain ⟨⟨t, h1, h2⟩, h3⟩ := hp
              exact ⟨⟨t, by omega, h2⟩, h3⟩
            rw [if_pos hp']
            have := hj j hjk i
            rw [if_pos hp] at this
            rw [upd2]
            split
            · rfl
            · exact this
          · have hAj := hj j hjk i
            rw [if_neg hp] at hAj
            by_cases hq : j = A k c / n ∧ i = A k c % n
            · obtain ⟨q1, q2⟩ := hq
              rw [if_pos ⟨⟨c, by omega, by rw [← hAc]; exact ha, by rw [q1, q2, hAc, hdm]⟩, by
                rw [q2]; exact Nat.mod_lt _ hn⟩]
              rw [upd2, if_pos ⟨q1, q2⟩]
            · have hnp : ¬ ((∃ t, t < c + 1 ∧ m.adja k t ≠ 0 ∧ m.adja k t = n * j + i) ∧ i < n) := by
                rintro ⟨⟨t, h1, h2, h3⟩, h4⟩
                by_cases ht : t = c
                · subst ht
                  apply hq
                  rw [hAc, h3]
                  constructor
                  · rw [Nat.mul_add_div hn, Nat.div_eq_of_lt h4]; simp
                  · rw [Nat.mul_add_mod, Nat.mod_eq_of_lt h4]
                · exact hp ⟨⟨t, by omega, h2, h3⟩, h4⟩
              rw [if_neg hnp, ← hAj, upd2, if_neg hq]) m ⟨m.adja, rfl, fun i => Or.inl rfl, by
        intro j hjk i; rw [if_neg]; rintro ⟨⟨t, h1, _⟩, _⟩; omega⟩
  obtain ⟨A, h1, _, h3⟩ := h
  exact ⟨A, h1, by simpa using h3⟩

/-! ### The loop on the elements -/

/-- State before turn `k`. -/
structure KInv (n : Nat) (nsd : Int) (m0 : Mesh) (k : Nat) (m : Mesh) : Prop where
  np : m.np = m0.np
  nul : m.nul = m0.nul
  req : m.req = m0.req
  nq : m.nq = m0.nq
  q : m.q = m0.q
  had : m.hasAdja = m0.hasAdja
  le : m.ne ≤ m0.ne
  alive : ∀ j, Alive m j ↔ Alive m0 j ∧ (k ≤ j ∨ m0.ref j = nsd)
  v : ∀ j, Alive m j → m.v j = m0.v j ∧ m.ref j = m0.ref j
  flag : ∀ p, m.flag p = true ↔ (m0.flag p = true ∨ ∃ j, j < k ∧ Alive m0 j ∧ ∃ i, i < n ∧ m0.v j i = p)
  adja : m0.hasAdja = true → ∀ j i, Alive m j → i < n →
    (Alive m (m0.adja j i / n) → m.adja j i = m0.adja j i) ∧ (¬ Alive m (m0.adja j i / n) → m.adja j i = 0)

theorem delElt_alive (n : Nat) (hn : 1 < n) (m : Mesh) (k : Nat) (j : Nat) (hk : Alive m k) :
    Alive (delElt n m k) j ↔ Alive m j ∧ j ≠ k := by
  have he : eok m k = true := by simpa [eok] using hk.2.2
  unfold delElt
  rw [if_pos he]
  unfold Alive
  dsimp only
  have hv : ∀ j, (0 < upd m.v k (fun i => if i = n - 1 then m.nenil else 0) j 0) ↔ (0 < m.v j 0 ∧ j ≠ k) := by
    intro j
    simp only [upd]
    by_cases hj : j = k
    · simp only [hj, if_true, ne_eq, not_true, and_false, iff_false]
      rw [if_neg (by omega)]; simp
    · simp [hj]
  rw [hv]
  constructor
  · rintro ⟨h1, h2, h3, h4⟩
    refine ⟨⟨h1, ?_, h3⟩, h4⟩
    split at h2
    · exact le_trans h2 (trim_le _ _)
    · exact h2
  · rintro ⟨⟨h1, h2, h3⟩, h4⟩
    refine ⟨h1, ?_, h3, h4⟩
    split
    · next e =>
      by_contra hc
      have := trim_above _ _ j (not_le.1 hc) h2
      rw [decide_eq_false_iff_not] at this
      exact this ((hv j).2 ⟨h3, h4⟩)
    · exact h2

theorem keepBody_inv {n : Nat} (hn : 1 < n) {nsd : Int} {m0 : Mesh}
    (hl : m0.hasAdja = true → Linked n m0) {k : Nat} {m : Mesh} (hk : 1 ≤ k) (hkn : k ≤ m.ne)
    (h : KInv n nsd m0 k m) : KInv n nsd m0 (k + 1) (keepBody n nsd k m) := by
  have hstep : ∀ j, j ≠ k → (k ≤ j ↔ k + 1 ≤ j) := by intro j hj; omega
  unfold keepBody
  by_cases he : eok m k = true
  · have hka : Alive m k := ⟨hk, hkn, by simpa [eok] using he⟩
    have hka0 : Alive m0 k := ((h.alive k).1 hka).1
    rw [if_pos he]
    obtain ⟨f, hf1, hf2⟩ := see_spec k n m
    have hflag : ∀ p, f p = true ↔
        (m0.flag p = true ∨ ∃ j, j < k + 1 ∧ Alive m0 j ∧ ∃ i, i < n ∧ m0.v j i = p) := by
      intro p
      rw [hf2 p, h.flag p, (h.v k hka).1]
      constructor
      · rintro ((h1 | ⟨j, h1, h2⟩) | h1)
        · exact Or.inl h1
        · exact Or.inr ⟨j, by omega, h2⟩
        · exact Or.inr ⟨k, by omega, hka0, h1⟩
      · rintro (h1 | ⟨j, h1, h2, h3⟩)
        · exact Or.inl (Or.inl h1)
        · by_cases hj : j = k
          · subst hj; exact Or.inr h3
          · exact Or.inl (Or.inr ⟨j, by omega, h2, h3⟩)
    rw [hf1]
    dsimp only
    by_cases hr : m.ref k = nsd
    · rw [if_pos hr]
      refine ⟨h.np, h.nul, h.req, h.nq, h.q, h.had, h.le, ?_, h.v, hflag, h.adja⟩
      intro j
      show Alive m j ↔ _
      rw [h.alive j]
      by_cases hj : j = k
      · subst hj
        rw [(h.v j hka).2] at hr
        simp [hr]
      · rw [hstep j hj]
    · rw [if_neg hr]
      have hr0 : m0.ref k ≠ nsd := by rw [← (h.v k hka).2]; exact hr
      -- after the reset of the links
      obtain ⟨A, hA1, hA2⟩ : ∃ A, (if ({ m with flag := f } : Mesh).hasAdja = true
            then unlink k n { m with flag := f } else { m with flag := f }) = { m with flag := f, adja := A } ∧
          (m.hasAdja = true → ∀ j, j ≠ k → ∀ i, A j i =
            if (∃ t, t < n ∧ m.adja k t ≠ 0 ∧ m.adja k t = n * j + i) ∧ i < n then 0 else m.adja j i) := by
        by_cases hh : m.hasAdja = true
        · rw [if_pos hh]
          have hL := hl (by rw [← h.had]; exact hh)
          obtain ⟨A, q1, q2⟩ := unlink_spec k n (by omega) { m with flag := f } (by
            intro i hi hne
            dsimp only at hne ⊢
            have had := h.adja (by rw [← h.had]; exact hh) k i hka hi
            by_cases ha : Alive m (m0.adja k i / n)
            · have e := had.1 ha
              rw [e] at hne ⊢
              obtain ⟨_, r2⟩ := hL k i hka0 hi hne
              have r3 := (h.adja (by rw [← h.had]; exact hh) (m0.adja k i / n) (m0.adja k i % n) ha
                (Nat.mod_lt _ (by omega))).1 (by
                  rw [r2, Nat.mul_add_div (by omega), Nat.div_eq_of_lt hi]; simpa using hka)
              rw [r3, r2]
            · exact absurd (had.2 ha) hne)
          exact ⟨A, q1, fun _ => q2⟩
        · rw [if_neg hh]
          exact ⟨m.adja, rfl, fun e => absurd e hh⟩
      rw [hA1]
      have hka' : Alive ({ m with flag := f, adja := A } : Mesh) k := hka
      have hal : ∀ j, Alive (delElt n { m with flag := f, adja := A } k) j ↔ Alive m j ∧ j ≠ k :=
        fun j => delElt_alive n hn _ k j hka'
      have hdel : delElt n ({ m with flag := f, adja := A } : Mesh) k = { m with
          flag := f
          v := upd m.v k (fun i => if i = n - 1 then m.nenil else 0)
          ref := upd m.ref k 0
          adja := if m.hasAdja then upd A k (fun _ => 0) else A
          nenil := k
          ne := if k = m.ne then trim (fun j => 0 < upd m.v k (fun i => if i = n - 1 then m.nenil else 0) j 0)
            m.ne else m.ne } := by
        unfold delElt
        rw [if_pos (by simpa [eok] using hka.2.2)]
      refine ⟨?_, ?_, ?_, ?_, ?_, ?_, ?_, ?_, ?_, ?_, ?_⟩
      · rw [hdel]; exact h.np
      · rw [hdel]; exact h.nul
      · rw [hdel]; exact h.req
      · rw [hdel]; exact h.nq
      · rw [hdel]; exact h.q
      · rw [hdel]; exact h.had
      · rw [hdel]
        dsimp only
        split
        · exact le_trans (trim_le _ _) h.le
        · exact h.le
      · intro j
        rw [hal j, h.alive j]
        by_cases hj : j = k
        · subst hj
          simp only [ne_eq, not_true, and_false, false_iff, not_and, not_or]
          exact fun _ => ⟨by omega, hr0⟩
        · rw [hstep j hj]
          simp [hj]
      · intro j hj
        rw [hal j] at hj
        rw [hdel]
        dsimp only
        simp only [upd]
        rw [if_neg hj.2, if_neg hj.2]
        exact h.v j hj.1
      · intro p
        rw [hdel]
        exact hflag p
      · intro hh j i hj hi
        have hhm : m.hasAdja = true := by rw [h.had]; exact hh
        rw [hal j] at hj
        have hv := hA2 hhm j hj.2 i
        have hrow : (delElt n ({ m with flag := f, adja := A } : Mesh) k).adja j i = A j i := by
          rw [hdel]
          dsimp only
          rw [if_pos hhm]
          simp only [upd]
          rw [if_neg hj.2]
        rw [hrow, hv, hal]
        have hold := h.adja hh j i hj.1 hi
        have hL := hl hh
        have hj0 : Alive m0 j := ((h.alive j).1 hj.1).1
        constructor
        · rintro ⟨ha, hne⟩
          rw [if_neg]
          · exact hold.1 ha
          · rintro ⟨⟨t, h1, h2, h3⟩, _⟩
            apply hne
            have hk2 := h.adja hh k t hka h1
            by_cases ha2 : Alive m (m0.adja k t / n)
            · have e := hk2.1 ha2
              rw [e] at h2 h3
              obtain ⟨_, r2⟩ := hL k t hka0 h1 h2
              rw [h3, Nat.mul_add_div (by omega), Nat.div_eq_of_lt hi, Nat.mul_add_mod,
                Nat.mod_eq_of_lt hi] at r2
              rw [Nat.add_zero] at r2
              rw [r2, Nat.mul_add_div (by omega), Nat.div_eq_of_lt h1, Nat.add_zero]
            · exact absurd (hk2.2 ha2) h2
        · intro hna
          split
          · rfl
          · next hc =>
            by_cases ha : Alive m (m0.adja j i / n)
            · -- the neighbour is the deleted element: its link is the one that was reset
              have hkj : m0.adja j i / n = k := by
                by_contra hx
                exact hna ⟨ha, hx⟩
              have e := hold.1 ha
              by_contra hne
              rw [e] at hne
              obtain ⟨r1, r2⟩ := hL j i hj0 hi hne
              apply hc
              refine ⟨⟨m0.adja j i % n, Nat.mod_lt _ (by omega), ?_, ?_⟩, hi⟩
              · rw [hkj] at r2
                have hk2 := (h.adja hh k (m0.adja j i % n) hka (Nat.mod_lt _ (by omega))).1 (by
                  rw [r2, Nat.mul_add_div (by omega), Nat.div_eq_of_lt hi]; simpa using hj.1)
                rw [hk2, r2]
                have := hj.1.1
                have := Nat.mul_le_mul (show 1 ≤ n by omega) this
                omega
              · rw [hkj] at r2
                have hk2 := (h.adja hh k (m0.adja j i % n) hka (Nat.mod_lt _ (by omega))).1 (by
                  rw [r2, Nat.mul_add_div (by omega), Nat.div_eq_of_lt hi]; simpa using hj.1)
                rw [hk2, r2]
            · exact hold.2 ha
  · have hk0 : ¬ Alive m0 k := by
      intro ha
      have := (h.alive k).2 ⟨ha, Or.inl le_rfl⟩
      exact he (by simpa [eok] using this.2.2)
    rw [if_neg he]
    refine ⟨h.np, h.nul, h.req, h.nq, h.q, h.had, h.le, ?_, h.v, ?_, h.adja⟩
    · intro j
      rw [h.alive j]
      by_cases hj : j = k
      · subst hj; simp [hk0]
      · rw [hstep j hj]
    · intro p
      rw [h.flag p]
      constructor
      · rintro (h1 | ⟨j, h1, h2⟩)
        · exact Or.inl h1
        · exact Or.inr ⟨j, by omega, h2⟩
      · rintro (h1 | ⟨j, h1, h2, h3⟩)
        · exact Or.inl h1
        · by_cases hj : j = k
          · subst hj; exact absurd h2 hk0
          · exact Or.inr ⟨j, by omega, h2, h3⟩

theorem keepLoop_inv {n : Nat} (hn : 1 < n) {nsd : Int} {m0 : Mesh} (hl : m0.hasAdja = true → Linked n m0)
    (fuel k : Nat) (m : Mesh) (hk : 1 ≤ k) (hfuel : m0.ne < fuel + k) (h : KInv n nsd m0 k m) :
    KInv n nsd m0 (m0.ne + 1) (keepLoop n nsd fuel k m) := by
  have hfin : ∀ k m, KInv n nsd m0 k m → m.ne < k → KInv n nsd m0 (m0.ne + 1) m := by
    intro k m h hlt
    refine ⟨h.np, h.nul, h.req, h.nq, h.q, h.had, h.le, ?_, h.v, ?_, h.adja⟩
    · intro j
      rw [h.alive j]
      constructor
      · rintro ⟨h1, h2⟩
        refine ⟨h1, ?_⟩
        rcases h2 with h2 | h2
        · have := (h.alive j).2 ⟨h1, Or.inl h2⟩
          have := this.2.1
          omega
        · exact Or.inr h2
      · rintro ⟨h1, h2⟩
        refine ⟨h1, ?_⟩
        rcases h2 with h2 | h2
        · have := h1.2.1; omega
        · exact Or.inr h2
    · intro p
      rw [h.flag p]
      constructor
      · rintro (h1 | ⟨j, h1, h2, h3⟩)
        · exact Or.inl h1
        · exact Or.inr ⟨j, by have := h2.2.1; omega, h2, h3⟩
      · rintro (h1 | ⟨j, h1, h2, h3⟩)
        · exact Or.inl h1
        · refine Or.inr ⟨j, ?_, h2, h3⟩
          by_contra hc
          have := ((h.alive j).2 ⟨h2, Or.inl (not_lt.1 hc)⟩).2.1
          omega
  induction fuel generalizing k m with
  | zero =>
    simp only [keepLoop]
    exact hfin k m h (by have := h.le; omega)
  | succ fuel ih =>
    simp only [keepLoop]
    split
    · next hle => exact ih (k + 1) _ (by omega) (by omega) (keepBody_inv hn hl hk hle h)
    · next hle => exact hfin k m h (by omega)

theorem kinv_init (n : Nat) (nsd : Int) (m : Mesh) (hl : m.hasAdja = true → Linked n m) : KInv n nsd m 1 m := by
  refine ⟨rfl, rfl, rfl, rfl, rfl, rfl, le_rfl, ?_, fun _ _ => ⟨rfl, rfl⟩, ?_, ?_⟩
  · intro j; exact ⟨fun h => ⟨h, Or.inl h.1⟩, fun h => h.1⟩
  · intro p
    constructor
    · exact Or.inl
    · rintro (h | ⟨j, h1, h2, _⟩)
      · exact h
      · have := h2.1; omega
  · intro hh j i hj hi
    refine ⟨fun _ => rfl, fun hna => ?_⟩
    by_contra hne
    exact hna (hl hh j i hj hi hne).1

theorem keep_inv {n : Nat} (hn : 1 < n) (nsd : Int) (m : Mesh) (hl : m.hasAdja = true → Linked n m) :
    KInv n nsd m (m.ne + 1) (keep n nsd m) :=
  keepLoop_inv hn hl m.ne 1 m le_rfl (by omega) (kinv_init n nsd m hl)

/-! ### The loops on the points -/

theorem unuse_spec (m : Mesh) : ∃ fl nl, unuse m = { m with flag := fl, nul := nl } ∧
    (∀ p, 1 ≤ p → p ≤ m.np → nl p = true ∧ (m.nul p = false → fl p = false)) ∧
    (∀ p, (m.nul p = true ∨ p = 0 ∨ m.np < p) → nl p = m.nul p ∧ fl p = m.flag p) := by
  have h := forRange_inv_lt (body := unuseBody) (P := fun k m' => ∃ fl nl, m' = { m with flag := fl, nul := nl } ∧
    (∀ p, 1 ≤ p → p < k → nl p = true ∧ (m.nul p = false → fl p = false)) ∧
    (∀ p, (m.nul p = true ∨ p = 0 ∨ k ≤ p) → nl p = m.nul p ∧ fl p = m.flag p)) m.np 1 (by
      rintro k m' hk1 hk2 ⟨fl, nl, rfl, h1, h2⟩
      unfold unuseBody
      dsimp only
      have hk := h2 k (Or.inr (Or.inr le_rfl))
      by_cases hn : nl k = true
      · rw [if_pos hn]
        refine ⟨fl, nl, rfl, ?_, ?_⟩
        · intro p hp1 hp2
          by_cases hp : p = k
          · subst hp
            refine ⟨hn, fun e => ?_⟩
            rw [hk.1, e] at hn; cases hn
          · exact h1 p hp1 (by omega)
        · intro p hp
          apply h2
          rcases hp with hp | hp | hp
          · exact Or.inl hp
          · exact Or.inr (Or.inl hp)
          · exact Or.inr (Or.inr (by omega))
      · rw [if_neg hn]
        refine ⟨_, _, rfl, ?_, ?_⟩
        · intro p hp1 hp2
          simp only [upd]
          by_cases hp : p = k
          · simp [hp]
          · simp only [hp, if_false]; exact h1 p hp1 (by omega)
        · intro p hp
          have hpk : p ≠ k := by
            rintro rfl
            rcases hp with hp | hp | hp
            · rw [hk.1] at hn; exact hn hp
            · omega
            · omega
          simp only [upd, hpk, if_false]
          apply h2
          rcases hp with hp | hp | hp
          · exact Or.inl hp
          · exact Or.inr (Or.inl hp)
          · exact Or.inr (Or.inr (by omega))) m ⟨m.flag, m.nul, rfl, by intro p h1 h2; omega, by simp⟩
  obtain ⟨fl, nl, e, h1, h2⟩ := h
  refine ⟨fl, nl, e, ?_, ?_⟩
  · intro p hp1 hp2; exact h1 p hp1 (by omega)
  · intro p hp
    apply h2
    rcases hp with hp | hp | hp
    · exact Or.inl hp
    · exact Or.inr (Or.inl hp)
    · exact Or.inr (Or.inr (by omega))

theorem isolated_spec (m : Mesh) : ∃ nl, forRange isolatedBody 1 m.np m = { m with nul := nl } ∧
    ∀ p, nl p = false ↔ (m.nul p = false ∨ (1 ≤ p ∧ p ≤ m.np ∧ m.flag p = false ∧ m.req p = true)) := by
  have h := forRange_inv_lt (body := isolatedBody) (P := fun k m' => ∃ nl, m' = { m with nul := nl } ∧
    ∀ p, nl p = false ↔ (m.nul p = false ∨ (1 ≤ p ∧ p < k ∧ m.flag p = false ∧ m.req p = true)) ) m.np 1 (by
      rintro k m' hk1 _ ⟨nl, rfl, h1⟩
      unfold isolatedBody
      dsimp only
      split
      · next hc =>
        refine ⟨nl, rfl, fun p => ?_⟩
        rw [h1 p]
        have : p = k → ¬ (m.flag p = false ∧ m.req p = true) := by
          rintro rfl ⟨e1, e2⟩; rw [e1, e2] at hc; simp at hc
        constructor
        · rintro (h | ⟨a, b, c⟩)
          · exact Or.inl h
          · exact Or.inr ⟨a, by omega, c⟩
        · rintro (h | ⟨a, b, c⟩)
          · exact Or.inl h
          · refine Or.inr ⟨a, ?_, c⟩
            by_contra hx
            exact this (by omega) c
      · next hc =>
        rw [Bool.not_eq_true, Bool.or_eq_false_iff, Bool.not_eq_false'] at hc
        refine ⟨_, rfl, fun p => ?_⟩
        simp only [upd]
        by_cases hp : p = k
        · subst hp
          simp only [if_true, true_iff]
          exact Or.inr ⟨hk1, by omega, hc⟩
        · simp only [hp, if_false]
          rw [h1 p]
          constructor
          · rintro (h | ⟨a, b, c⟩)
            · exact Or.inl h
            · exact Or.inr ⟨a, by omega, c⟩
          · rintro (h | ⟨a, b, c⟩)
            · exact Or.inl h
            · exact Or.inr ⟨a, by omega, c⟩) m ⟨m.nul, rfl, by
        intro p; constructor
        · exact Or.inl
        · rintro (h | ⟨a, b, _⟩)
          · exact h
          · omega⟩
  obtain ⟨nl, e, h1⟩ := h
  refine ⟨nl, e, fun p => ?_⟩
  rw [h1 p]
  constructor
  · rintro (h | ⟨a, b, c⟩)
    · exact Or.inl h
    · exact Or.inr ⟨a, by omega, c⟩
  · rintro (h | ⟨a, b, c⟩)
    · exact Or.inl h
    · exact Or.inr ⟨a, by omega, c⟩

theorem useOne_spec (g : Nat → Nat) (c : Nat) (m : Mesh) :
    ∃ nl, forRange (fun i m => { m with nul := upd m.nul (g i) false }) 0 c m = { m with nul := nl } ∧
      ∀ p, nl p = false ↔ (m.nul p = false ∨ ∃ i, i < c ∧ g i = p) := by
  have h := forRange_inv (body := fun i m => { m with nul := upd m.nul (g i) false })
    (P := fun k m' => ∃ nl, m' = { m with nul := nl } ∧
      ∀ p, nl p = false ↔ (m.nul p = false ∨ ∃ i, i < k ∧ g i = p)) (by
      rintro k m' ⟨nl, rfl, h1⟩
      refine ⟨_, rfl, fun p => ?_⟩
      simp only [upd]
      by_cases hp : p = g k
      · simp only [hp, if_true, true_iff]; exact Or.inr ⟨k, by omega, rfl⟩
      · simp only [hp, if_false]
        rw [h1 p]
        constructor
        · rintro (h | ⟨i, h2, h3⟩)
          · exact Or.inl h
          · exact Or.inr ⟨i, by omega, h3⟩
        · rintro (h | ⟨i, h2, h3⟩)
          · exact Or.inl h
          · refine Or.inr ⟨i, ?_, h3⟩
            by_contra hx
            have : i = k := by omega
            subst this; exact hp h3.symm) c 0 m ⟨m.nul, rfl, by simp⟩
  simpa using h

theorem use_spec (f : Nat → Nat → Nat) (c cnt : Nat) (m : Mesh) :
    ∃ nl, forRange (useBody f c) 1 cnt m = { m with nul := nl } ∧
      ∀ p, nl p = false ↔ (m.nul p = false ∨ ∃ k, 1 ≤ k ∧ k ≤ cnt ∧ 0 < f k 0 ∧ ∃ i, i < c ∧ f k i = p) := by
  have h := forRange_inv_lt (body := useBody f c)
    (P := fun k m' => ∃ nl, m' = { m with nul := nl } ∧
      ∀ p, nl p = false ↔ (m.nul p = false ∨ ∃ j, 1 ≤ j ∧ j < k ∧ 0 < f j 0 ∧ ∃ i, i < c ∧ f j i = p)) cnt 1 (by
      rintro k m' hk _ ⟨nl, rfl, h1⟩
      unfold useBody
      split
      · next hf =>
        obtain ⟨nl', e, h2⟩ := useOne_spec (f k) c { m with nul := nl }
        refine ⟨nl', e, fun p => ?_⟩
        rw [h2 p]
        dsimp only
        rw [h1 p]
        constructor
        · rintro ((h | ⟨j, h3, h4, h5⟩) | h)
          · exact Or.inl h
          · exact Or.inr ⟨j, h3, by omega, h5⟩
          · exact Or.inr ⟨k, hk, by omega, hf, h⟩
        · rintro (h | ⟨j, h3, h4, h5, h6⟩)
          · exact Or.inl (Or.inl h)
          · by_cases hj : j = k
            · subst hj; exact Or.inr h6
            · exact Or.inl (Or.inr ⟨j, h3, by omega, h5, h6⟩)
      · next hf =>
        refine ⟨nl, rfl, fun p => ?_⟩
        rw [h1 p]
        constructor
        · rintro (h | ⟨j, h3, h4, h5⟩)
          · exact Or.inl h
          · exact Or.inr ⟨j, h3, by omega, h5⟩
        · rintro (h | ⟨j, h3, h4, h5, h6⟩)
          · exact Or.inl h
          · by_cases hj : j = k
            · subst hj; exact absurd h5 hf
            · exact Or.inr ⟨j, h3, by omega, h5, h6⟩) m ⟨m.nul, rfl, by
        intro p; constructor
        · exact Or.inl
        · rintro (h | ⟨j, h1, h2, _⟩)
          · exact h
          · omega⟩
  obtain ⟨nl, e, h1⟩ := h
  refine ⟨nl, e, fun p => ?_⟩
  rw [h1 p]
  constructor
  · rintro (h | ⟨j, h3, h4, h5⟩)
    · exact Or.inl h
    · exact Or.inr ⟨j, h3, by omega, h5⟩
  · rintro (h | ⟨j, h3, h4, h5⟩)
    · exact Or.inl h
    · exact Or.inr ⟨j, h3, by omega, h5⟩

theorem clean_spec (fuel : Nat) (m : Mesh) (hf : m.np ≤ fuel) : ∃ np nul req flag npnil,
    cleanLoop fuel m = { m with np := np, nul := nul, req := req, flag := flag, npnil := npnil } ∧
    (∀ p, (1 ≤ p ∧ p ≤ np ∧ nul p = false) ↔ Valid m p) ∧
    (∀ p, Valid m p → req p = m.req p) ∧
    (np ≠ 0 → nul np = false) := by
  induction fuel generalizing m with
  | zero =>
    refine ⟨m.np, m.nul, m.req, m.flag, m.npnil, rfl, fun p => Iff.rfl, fun _ _ => rfl, fun h => ?_⟩
    omega
  | succ fuel ih =>
    simp only [cleanLoop]
    split
    · next hc =>
      rw [Bool.and_eq_true, bne_iff_ne] at hc
      have hnp : (delPt m m.np).np ≤ fuel := by
        unfold delPt
        dsimp only
        rw [if_pos rfl]
        have h1 := trim_le (fun j => !upd m.nul m.np true j) m.np
        by_contra hx
        have he : trim (fun j => !upd m.nul m.np true j) m.np = m.np := by omega
        have h2 := trim_ok (fun j => !upd m.nul m.np true j) m.np (by rw [he]; exact hc.2)
        rw [he] at h2
        simp [upd] at h2
      obtain ⟨np, nul, req, flag, npnil, e, h1, h2, h3⟩ := ih (delPt m m.np) hnp
      have hv : ∀ p, Valid (delPt m m.np) p ↔ Valid m p := by
        intro p
        unfold Valid delPt
        dsimp only
        rw [if_pos rfl]
        constructor
        · rintro ⟨q1, q2, q3⟩
          refine ⟨q1, le_trans q2 (trim_le _ _), ?_⟩
          simp only [upd] at q3
          split at q3
          · cases q3
          · exact q3
        · rintro ⟨q1, q2, q3⟩
          have hp : p ≠ m.np := by rintro rfl; rw [hc.1] at q3; cases q3
          have hu : upd m.nul m.np true p = false := by simp [upd, hp, q3]
          refine ⟨q1, ?_, hu⟩
          by_contra hx
          have := trim_above _ _ p (not_le.1 hx) q2
          rw [hu] at this
          cases this
      refine ⟨np, nul, req, flag, npnil, ?_, fun p => (h1 p).trans (hv p), ?_, h3⟩
      · rw [e]; rfl
      · intro p hp
        rw [h2 p ((hv p).2 hp)]
        have hpn : p ≠ m.np := by rintro rfl; have := hp.2.2; rw [hc.1] at this; cases this
        simp [delPt, upd, hpn]
    · next hc =>
      refine ⟨m.np, m.nul, m.req, m.flag, m.npnil, rfl, fun p => Iff.rfl, fun _ _ => rfl, fun h => ?_⟩
      rw [Bool.and_eq_true, bne_iff_ne, not_and, not_not] at hc
      cases hx : m.nul m.np with
      | false => rfl
      | true => exact absurd (hc hx) h

theorem markUsed_spec (n c : Nat) (m : Mesh) : ∃ np nul req flag npnil,
    markUsed n c m = { m with np := np, nul := nul, req := req, flag := flag, npnil := npnil } ∧
    (∀ p, (1 ≤ p ∧ p ≤ np ∧ nul p = false) ↔ (1 ≤ p ∧ p ≤ m.np ∧ (m.nul p = false ∨
      (m.flag p = false ∧ m.req p = true) ∨ Used n m p ∨ UsedQ c m p))) ∧
    (∀ p, 1 ≤ p → p ≤ np → nul p = false → req p = m.req p) ∧
    (np ≠ 0 → nul np = false) := by
  obtain ⟨n1, e1, h1⟩ := isolated_spec m
  obtain ⟨n2, e2, h2⟩ := use_spec m.v n m.ne { m with nul := n1 }
  obtain ⟨n3, e3, h3⟩ := use_spec m.q c m.nq { m with nul := n2 }
  obtain ⟨np, nul, req, flag, npnil, e4, h4, h5, h6⟩ := clean_spec m.np { m with nul := n3 } le_rfl
  refine ⟨np, nul, req, flag, npnil, ?_, ?_, ?_, h6⟩
  · unfold markUsed
    rw [e1]
    dsimp only at e2 e3 e4 ⊢
    rw [e2]
    dsimp only
    rw [e3]
    dsimp only
    rw [e4]
  · intro p
    rw [h4 p]
    unfold Valid
    dsimp only
    rw [h3 p, h2 p, h1 p]
    unfold Used UsedQ Alive
    constructor
    · rintro ⟨q1, q2, ((q | q) | ⟨k, r1, r2, r3, r4⟩) | q⟩
      · exact ⟨q1, q2, Or.inl q⟩
      · exact ⟨q1, q2, Or.inr (Or.inl q.2.2)⟩
      · exact ⟨q1, q2, Or.inr (Or.inr (Or.inl ⟨k, ⟨r1, r2, r3⟩, r4⟩))⟩
      · exact ⟨q1, q2, Or.inr (Or.inr (Or.inr q))⟩
    · rintro ⟨q1, q2, q | q | ⟨k, ⟨r1, r2, r3⟩, r4⟩ | q⟩
      · exact ⟨q1, q2, Or.inl (Or.inl (Or.inl q))⟩
      · exact ⟨q1, q2, Or.inl (Or.inl (Or.inr ⟨q1, q2, q⟩))⟩
      · exact ⟨q1, q2, Or.inl (Or.inr ⟨k, r1, r2, r3, r4⟩)⟩
      · exact ⟨q1, q2, Or.inr q⟩
  · intro p q1 q2 q3
    exact h5 p ((h4 p).1 ⟨q1, q2, q3⟩)

/-! ### C39 and C40 -/

/-- **C39** Keeping the sub-domain `nsd`: the elements left are exactly those of this reference, with their vertices
and references; a link is kept exactly if it leads to an element left, and the links are still reciprocal. -/
theorem C39_kept_elements (n c : Nat) (hn : 1 < n) (nsd : Int) (hd : nsd ≠ 0) (m : Mesh)
    (hl : m.hasAdja = true → Linked n m) :
    (∀ k, Alive (keepOnly n c nsd m) k ↔ Alive m k ∧ m.ref k = nsd) ∧
    (∀ k, Alive (keepOnly n c nsd m) k →
      (keepOnly n c nsd m).v k = m.v k ∧ (keepOnly n c nsd m).ref k = m.ref k) ∧
    (m.hasAdja = true → Linked n (keepOnly n c nsd m) ∧
      ∀ k i, Alive (keepOnly n c nsd m) k → i < n →
        (Alive (keepOnly n c nsd m) (m.adja k i / n) → (keepOnly n c nsd m).adja k i = m.adja k i) ∧
        (¬ Alive (keepOnly n c nsd m) (m.adja k i / n) → (keepOnly n c nsd m).adja k i = 0)) ∧
    (keepOnly n c nsd m).nq = m.nq ∧ (keepOnly n c nsd m).q = m.q := by
  obtain ⟨fl, nl, eu, _, _⟩ := unuse_spec m
  have hk := keep_inv hn nsd (unuse m) (by rw [eu]; exact hl)
  obtain ⟨np, nul, req, flag, npnil, e, _, _, _⟩ := markUsed_spec n c (keep n nsd (unuse m))
  have hres : keepOnly n c nsd m = { keep n nsd (unuse m) with
      np := np, nul := nul, req := req, flag := flag, npnil := npnil } := by
    unfold keepOnly
    rw [if_neg hd, e]
  have hal : ∀ k, Alive (keepOnly n c nsd m) k ↔ Alive m k ∧ m.ref k = nsd := by
    intro k
    rw [hres]
    show Alive (keep n nsd (unuse m)) k ↔ _
    rw [hk.alive k, eu]
    show (Alive m k ∧ (m.ne + 1 ≤ k ∨ m.ref k = nsd)) ↔ _
    constructor
    · rintro ⟨h1, h2 | h2⟩
      · have := h1.2.1; omega
      · exact ⟨h1, h2⟩
    · rintro ⟨h1, h2⟩; exact ⟨h1, Or.inr h2⟩
  have hlink : m.hasAdja = true → ∀ k i, Alive (keepOnly n c nsd m) k → i < n →
        (Alive (keepOnly n c nsd m) (m.adja k i / n) → (keepOnly n c nsd m).adja k i = m.adja k i) ∧
        (¬ Alive (keepOnly n c nsd m) (m.adja k i / n) → (keepOnly n c nsd m).adja k i = 0) := by
    intro hh k i ha hi
    have := hk.adja (by rw [eu]; exact hh) k i (by rw [hres] at ha; exact ha) hi
    rw [eu] at this
    rw [eu] at hres
    rw [hres]
    exact this
  refine ⟨hal, ?_, ?_, ?_, ?_⟩
  · intro k ha
    have := hk.v k (by rw [hres] at ha; exact ha)
    rw [eu] at this
    rw [eu] at hres
    rw [hres]
    exact this
  · intro hh
    refine ⟨?_, hlink hh⟩
    intro k i ha hi hne
    have h1 := hlink hh k i ha hi
    by_cases ht : Alive (keepOnly n c nsd m) (m.adja k i / n)
    · have e1 := h1.1 ht
      rw [e1] at hne ⊢
      obtain ⟨_, r2⟩ := hl hh k i ((hal k).1 ha).1 hi hne
      refine ⟨ht, ?_⟩
      have h2 := (hlink hh _ (m.adja k i % n) ht (Nat.mod_lt _ (by omega))).1 (by
        rw [r2, Nat.mul_add_div (by omega), Nat.div_eq_of_lt hi]; simpa using ha)
      rw [h2, r2]
    · exact absurd (h1.2 ht) hne
  · rw [hres]; show (keep n nsd (unuse m)).nq = _; rw [hk.nq, eu]
  · rw [hres]; show (keep n nsd (unuse m)).q = _; rw [hk.q, eu]

/-- **C39** Without a chosen sub-domain nothing changes. -/
theorem C39_no_choice (n c : Nat) (m : Mesh) : keepOnly n c 0 m = m := by simp [keepOnly]

/-- **C40** After the marking a vertex is valid exactly if a kept element, a quadrilateral or a prism uses it, or if
it is a required vertex that no element of the initial mesh used (and that was valid, or had no stale flag); the
required mark of valid vertices is not changed, and the last position of the array is a valid vertex. -/
theorem C40_valid_vertices (n c : Nat) (hn : 1 < n) (nsd : Int) (hd : nsd ≠ 0) (m : Mesh)
    (hl : m.hasAdja = true → Linked n m) :
    (∀ p, Valid (keepOnly n c nsd m) p ↔ (1 ≤ p ∧ p ≤ m.np ∧
      (Used n (keepOnly n c nsd m) p ∨ UsedQ c m p ∨
        (m.req p = true ∧ ¬ Used n m p ∧ (m.nul p = false ∨ m.flag p = false))))) ∧
    (∀ p, Valid (keepOnly n c nsd m) p → (keepOnly n c nsd m).req p = m.req p) ∧
    ((keepOnly n c nsd m).np ≠ 0 → Valid (keepOnly n c nsd m) (keepOnly n c nsd m).np) := by
  obtain ⟨fl, nl, eu, hu1, hu2⟩ := unuse_spec m
  have hk := keep_inv hn nsd (unuse m) (by rw [eu]; exact hl)
  obtain ⟨np, nul, req, flag, npnil, e, h1, h2, h3⟩ := markUsed_spec n c (keep n nsd (unuse m))
  have hres : keepOnly n c nsd m = { keep n nsd (unuse m) with
      np := np, nul := nul, req := req, flag := flag, npnil := npnil } := by
    unfold keepOnly
    rw [if_neg hd, e]
  have hused : ∀ p, Used n (keepOnly n c nsd m) p ↔ Used n (keep n nsd (unuse m)) p := by
    intro p; rw [hres]; rfl
  have hnp : (keep n nsd (unuse m)).np = m.np := by rw [hk.np, eu]
  have hnul : (keep n nsd (unuse m)).nul = nl := by rw [hk.nul, eu]
  have hreq : (keep n nsd (unuse m)).req = m.req := by rw [hk.req, eu]
  have husedQ : ∀ p, UsedQ c (keep n nsd (unuse m)) p ↔ UsedQ c m p := by
    intro p; unfold UsedQ; rw [hk.nq, hk.q, eu]
  have hflag : ∀ p, 1 ≤ p → p ≤ m.np → ((keep n nsd (unuse m)).flag p = false ↔
      (¬ Used n m p ∧ (m.nul p = false ∨ m.flag p = false))) := by
    intro p q1 q2
    rw [← Bool.not_eq_true, hk.flag p, eu]
    show ¬ (fl p = true ∨ ∃ j, j < m.ne + 1 ∧ Alive m j ∧ ∃ i, i < n ∧ m.v j i = p) ↔ _
    have hU : (∃ j, j < m.ne + 1 ∧ Alive m j ∧ ∃ i, i < n ∧ m.v j i = p) ↔ Used n m p := by
      unfold Used
      constructor
      · rintro ⟨j, _, h⟩; exact ⟨j, h⟩
      · rintro ⟨j, h⟩; exact ⟨j, by have := h.1.2.1; omega, h⟩
    rw [hU, not_or]
    have hF : ¬ fl p = true ↔ (m.nul p = false ∨ m.flag p = false) := by
      rw [Bool.not_eq_true]
      cases hx : m.nul p with
      | false => simp [(hu1 p q1 q2).2 hx]
      | true => rw [(hu2 p (Or.inl hx)).2]; simp
    rw [hF]
    exact ⟨fun h => ⟨h.2, h.1⟩, fun h => ⟨h.2, h.1⟩⟩
  refine ⟨?_, ?_, ?_⟩
  · intro p
    have : Valid (keepOnly n c nsd m) p ↔ (1 ≤ p ∧ p ≤ np ∧ nul p = false) := by rw [hres]; rfl
    rw [this, h1 p, hnp, hused, hnul, hreq, husedQ]
    constructor
    · rintro ⟨q1, q2, q3⟩
      refine ⟨q1, q2, ?_⟩
      rcases q3 with q | q | q | q
      · rw [(hu1 p q1 q2).1] at q; cases q
      · exact Or.inr (Or.inr ⟨q.2, (hflag p q1 q2).1 q.1⟩)
      · exact Or.inl q
      · exact Or.inr (Or.inl q)
    · rintro ⟨q1, q2, q3⟩
      refine ⟨q1, q2, Or.inr ?_⟩
      rcases q3 with q | q | q
      · exact Or.inr (Or.inl q)
      · exact Or.inr (Or.inr q)
      · exact Or.inl ⟨(hflag p q1 q2).2 q.2, q.1⟩
  · intro p hp
    have hp' : 1 ≤ p ∧ p ≤ np ∧ nul p = false := by rw [hres] at hp; exact hp
    have := h2 p hp'.1 hp'.2.1 hp'.2.2
    rw [hreq] at this
    rw [hres]
    exact this
  · intro hne
    rw [hres] at hne ⊢
    have hne' : np ≠ 0 := hne
    exact ⟨by show 1 ≤ np; omega, le_rfl, h3 hne'⟩

/-! ### Example: two triangles of different references -/

/-- Triangles (1,2,3) of reference 1 and (3,2,4) of reference 2, glued by the edge (2,3); vertex 5 is required and
isolated, vertex 6 only belongs to no element. -/
def sample : Mesh where
  np := 6
  nul := fun _ => false
  req := fun p => p == 5
  flag := fun _ => true
  npnil := 0
  ne := 2
  v := fun k i => if k = 1 then i + 1 else if i = 0 then 3 else if i = 1 then 2 else 4
  ref := fun k => k
  nenil := 0
  hasAdja := true
  adja := fun k i => if k = 1 ∧ i = 0 then 3 * 2 + 2 else if k = 2 ∧ i = 2 then 3 * 1 + 0 else 0
  nq := 0
  q := fun _ _ => 0

theorem sample_linked : Linked 3 sample := by
  intro k i hk hi hne
  have h1 : k = 1 ∨ k = 2 := by have := hk.1; have := hk.2.1; simp only [sample] at this; omega
  rcases h1 with rfl | rfl
  · have : i = 0 := by by_contra hx; simp [sample, hx] at hne
    subst this
    exact ⟨by unfold Alive; decide, by decide⟩
  · have : i = 2 := by by_contra hx; simp [sample, hx] at hne
    subst this
    exact ⟨by unfold Alive; decide, by decide⟩

example : ∀ k, Alive (keepOnly 3 4 1 sample) k ↔ Alive sample k ∧ sample.ref k = 1 :=
  (C39_kept_elements 3 4 (by decide) 1 (by decide) sample (fun _ => sample_linked)).1

example : (keepOnly 3 4 1 sample).np = 5 ∧ (keepOnly 3 4 1 sample).nul 4 = true ∧
    (keepOnly 3 4 1 sample).nul 5 = false ∧ (keepOnly 3 4 1 sample).ne = 1 ∧
    (keepOnly 3 4 1 sample).adja 1 0 = 0 := by decide

end Mmg.Sub
