/-
  Star split of a tetrahedron around its barycentre (`MMG5_split4bar`, mmg3d/split_3d.c 3050-3245):
  inherited data, volumes, faces and adjacency (C50).
-/
import Verif.Split3Mesh

namespace Mmg.Split3

/-! ### Model

The assignments of the vertices and boundary records are `body4bar` (Split3Model). -/

/-- Coordinates of the new point: `o = 0.25 * (sum of the vertices)`,
mmg3d/split_3d.c 3065-3075. -/
def bary {K : Type} [Field K] (c : Nat → Pt K) (v : List Nat) : Pt K :=
  let p0 := c (v.getD 0 0)
  let p1 := c (v.getD 1 0)
  let p2 := c (v.getD 2 0)
  let p3 := c (v.getD 3 0)
  ⟨(0 + p0.x + p1.x + p2.x + p3.x) * (1 / 4), (0 + p0.y + p1.y + p2.y + p3.y) * (1 / 4),
    (0 + p0.z + p1.z + p2.z + p3.z) * (1 / 4)⟩

/-- Index of `adja` for face `i` of tetrahedron `k`: `4*(k-1)+1+i`. -/
def adjIdx (k i : Nat) : Nat := 4 * (k - 1) + 1 + i

def setAt (A : Nat → Nat) (j x : Nat) : Nat → Nat := fun n => if n = j then x else A n

/-- Row of the new tetrahedron `j` (its number is `n j`), then the link of the old neighbour `a`:
mmg3d/split_3d.c 3119-3126 (`j = 1`), 3128-3135 (`j = 2`), 3137-3144 (`j = 3`). -/
def starRow (n : Nat → Nat) (j a : Nat) (A : Nat → Nat) : Nat → Nat :=
  let w (i : Nat) : Nat := if i = j then a else 4 * n i + j
  let A := setAt A (adjIdx (n j) 0) (w 0)
  let A := setAt A (adjIdx (n j) 1) (w 1)
  let A := setAt A (adjIdx (n j) 2) (w 2)
  let A := setAt A (adjIdx (n j) 3) (w 3)
  if a ≠ 0 then setAt A (4 * (a / 4 - 1) + 1 + a % 4) (4 * n j + j) else A

/-- Update of the adjacency, mmg3d/split_3d.c 3103-3145. -/
def starAdj (n : Nat → Nat) (A : Nat → Nat) : Nat → Nat :=
  let adj1 := A (adjIdx (n 0) 1)
  let adj2 := A (adjIdx (n 0) 2)
  let adj3 := A (adjIdx (n 0) 3)
  let A := setAt A (adjIdx (n 0) 1) (4 * n 1)
  let A := setAt A (adjIdx (n 0) 2) (4 * n 2)
  let A := setAt A (adjIdx (n 0) 3) (4 * n 3)
  starRow n 3 adj3 (starRow n 2 adj2 (starRow n 1 adj1 A))

/-- Vertices of the tetrahedra after the split, mmg3d/split_3d.c 3148. -/
def starVerts (n : Nat → Nat) (ib : Nat) (V : Nat → List Nat) (k : Nat) : List Nat :=
  if k = n 0 then (V (n 0)).set 0 ib
  else if k = n 1 then (V (n 0)).set 1 ib
  else if k = n 2 then (V (n 0)).set 2 ib
  else if k = n 3 then (V (n 0)).set 3 ib
  else V k

/-! ### Specification -/

/-- Link stored for face `i` of tetrahedron `k` (0, or 4 times the neighbour plus its face). -/
def link (A : Nat → Nat) (k i : Nat) : Nat := A (adjIdx k i)

/-- The links of the tetrahedra in `used` are symmetric and join faces with the same vertices. -/
structure AdjOK (A : Nat → Nat) (V : Nat → List Nat) (used : Nat → Prop) : Prop where
  pos : ∀ k, used k → 1 ≤ k
  ok : ∀ k, used k → ∀ i < 4, link A k i ≠ 0 →
    used (link A k i / 4) ∧ link A k i / 4 ≠ k ∧
    link A (link A k i / 4) (link A k i % 4) = 4 * k + i ∧
    faceTri 0 (V (link A k i / 4)) (link A k i % 4) = faceTri 0 (V k) i

/-! ### Lemmas -/

theorem link_set {A : Nat → Nat} {k i k' i' x : Nat} (hk : 1 ≤ k) (hk' : 1 ≤ k') (hi : i < 4)
    (hi' : i' < 4) :
    link (setAt A (adjIdx k i) x) k' i' = if k' = k ∧ i' = i then x else link A k' i' := by
  unfold link setAt adjIdx
  by_cases h : k' = k ∧ i' = i
  · rw [if_pos h, if_pos (by obtain ⟨rfl, rfl⟩ := h; rfl)]
  · rw [if_neg h, if_neg (by omega)]

theorem link_row {n : Nat → Nat} {j a : Nat} {A : Nat → Nat} (hj : 1 ≤ n j)
    (ha : a ≠ 0 → 1 ≤ a / 4 ∧ a / 4 ≠ n j) {k i : Nat} (hk : 1 ≤ k) (hi : i < 4) :
    link (starRow n j a A) k i = if k = n j then (if i = j then a else 4 * n i + j)
      else if a ≠ 0 ∧ k = a / 4 ∧ i = a % 4 then 4 * n j + j else link A k i := by
  have hmod : a % 4 < 4 := Nat.mod_lt _ (by decide)
  have hidx : 4 * (a / 4 - 1) + 1 + a % 4 = adjIdx (a / 4) (a % 4) := rfl
  unfold starRow
  simp only
  by_cases h0 : a ≠ 0
  · obtain ⟨h1, h2⟩ := ha h0
    rw [if_pos h0, hidx, link_set h1 hk hmod hi, link_set hj hk (by decide) hi,
      link_set hj hk (by decide) hi, link_set hj hk (by decide) hi, link_set hj hk (by decide) hi]
    by_cases hkj : k = n j
    · have : ¬ (k = a / 4 ∧ i = a % 4) := by rintro ⟨h, _⟩; exact h2 (h ▸ hkj)
      rw [if_neg this, if_pos hkj]
      simp only [hkj, true_and]
      interval_cases i <;> simp
    · simp only [hkj, false_and, if_false, h0, not_false_eq_true, true_and, ne_eq]
  · rw [if_neg h0, link_set hj hk (by decide) hi,
      link_set hj hk (by decide) hi, link_set hj hk (by decide) hi, link_set hj hk (by decide) hi]
    by_cases hkj : k = n j
    · rw [if_pos hkj]
      simp only [hkj, true_and]
      interval_cases i <;> simp
    · simp only [hkj, false_and, if_false, h0]

section
variable {n : Nat → Nat} {A : Nat → Nat} {V : Nat → List Nat} {used : Nat → Prop}

/-- The split tetrahedron is used, the three others are new and distinct. -/
structure NewTets (n : Nat → Nat) (used : Nat → Prop) : Prop where
  old : used (n 0)
  new : ∀ j, 1 ≤ j → j < 4 → 1 ≤ n j ∧ ¬ used (n j)
  inj : ∀ i < 4, ∀ j < 4, n i = n j → i = j

theorem link_star (hA : AdjOK A V used) (hn : NewTets n used) {k i : Nat} (hk : 1 ≤ k)
    (hi : i < 4) :
    link (starAdj n A) k i =
      if k = n 3 then (if i = 3 then link A (n 0) 3 else 4 * n i + 3)
      else if link A (n 0) 3 ≠ 0 ∧ k = link A (n 0) 3 / 4 ∧ i = link A (n 0) 3 % 4 then 4 * n 3 + 3
      else if k = n 2 then (if i = 2 then link A (n 0) 2 else 4 * n i + 2)
      else if link A (n 0) 2 ≠ 0 ∧ k = link A (n 0) 2 / 4 ∧ i = link A (n 0) 2 % 4 then 4 * n 2 + 2
      else if k = n 1 then (if i = 1 then link A (n 0) 1 else 4 * n i + 1)
      else if link A (n 0) 1 ≠ 0 ∧ k = link A (n 0) 1 / 4 ∧ i = link A (n 0) 1 % 4 then 4 * n 1 + 1
      else if k = n 0 then (if i = 0 then link A (n 0) 0 else 4 * n i)
      else link A k i := by
  have p0 := hA.pos _ hn.old
  have hne : ∀ j, 1 ≤ j → j < 4 → link A (n 0) j ≠ 0 → ∀ j', 1 ≤ j' → j' < 4 →
      1 ≤ link A (n 0) j / 4 ∧ link A (n 0) j / 4 ≠ n j' := by
    intro j _ h2 h3 j' h4 h5
    have hu := (hA.ok _ hn.old j h2 h3).1
    exact ⟨hA.pos _ hu, fun he => (hn.new j' h4 h5).2 (he ▸ hu)⟩
  have e : starAdj n A = starRow n 3 (link A (n 0) 3) (starRow n 2 (link A (n 0) 2)
      (starRow n 1 (link A (n 0) 1) (setAt (setAt (setAt A (adjIdx (n 0) 1) (4 * n 1))
        (adjIdx (n 0) 2) (4 * n 2)) (adjIdx (n 0) 3) (4 * n 3)))) := rfl
  rw [e, link_row (hn.new 3 (by decide) (by decide)).1
      (fun h => hne 3 (by decide) (by decide) h 3 (by decide) (by decide)) hk hi,
    link_row (hn.new 2 (by decide) (by decide)).1
      (fun h => hne 2 (by decide) (by decide) h 2 (by decide) (by decide)) hk hi,
    link_row (hn.new 1 (by decide) (by decide)).1
      (fun h => hne 1 (by decide) (by decide) h 1 (by decide) (by decide)) hk hi,
    link_set p0 hk (by decide) hi, link_set p0 hk (by decide) hi, link_set p0 hk (by decide) hi]
  congr 6
  by_cases hk0 : k = n 0
  · subst hk0
    interval_cases i <;> simp
  · simp [hk0]

/-- Rows of the four tetrahedra of the star. -/
theorem link_star_new (hA : AdjOK A V used) (hn : NewTets n used) {j i : Nat} (hj : j < 4)
    (hi : i < 4) :
    link (starAdj n A) (n j) i = if i = j then link A (n 0) j else 4 * n i + j := by
  have p0 := hA.pos _ hn.old
  have hpos : 1 ≤ n j := by
    rcases Nat.eq_zero_or_pos j with rfl | h
    · exact p0
    · exact (hn.new j h hj).1
  have hne : ∀ j', 1 ≤ j' → j' < 4 →
      ¬ (link A (n 0) j' ≠ 0 ∧ n j = link A (n 0) j' / 4 ∧ i = link A (n 0) j' % 4) := by
    rintro j' h1 h2 ⟨h3, h4, _⟩
    obtain ⟨hu, hself, _⟩ := hA.ok _ hn.old j' h2 h3
    rcases Nat.eq_zero_or_pos j with rfl | h
    · exact hself h4.symm
    · exact (hn.new j h hj).2 (h4 ▸ hu)
  have hd : ∀ j', j' < 4 → j ≠ j' → n j ≠ n j' := fun j' h1 h2 h3 => h2 (hn.inj j hj j' h1 h3)
  rw [link_star hA hn hpos hi, if_neg (hne 1 (by decide) (by decide)),
    if_neg (hne 2 (by decide) (by decide)), if_neg (hne 3 (by decide) (by decide))]
  interval_cases j
  · rw [if_neg (hd 3 (by decide) (by decide)), if_neg (hd 2 (by decide) (by decide)),
      if_neg (hd 1 (by decide) (by decide)), if_pos rfl]; rfl
  · rw [if_neg (hd 3 (by decide) (by decide)), if_neg (hd 2 (by decide) (by decide)), if_pos rfl]
  · rw [if_neg (hd 3 (by decide) (by decide)), if_pos rfl]
  · rw [if_pos rfl]

/-- Links of the other tetrahedra that pointed to the split one: they follow their face. -/
theorem link_star_nbr (hA : AdjOK A V used) (hn : NewTets n used) {k i j : Nat} (hk : used k)
    (hk0 : k ≠ n 0) (hi : i < 4) (hj : j < 4) (hl : link A k i = 4 * n 0 + j) :
    link (starAdj n A) k i = 4 * n j + j := by
  have p0 := hA.pos _ hn.old
  have hkj : ∀ j', 1 ≤ j' → j' < 4 → k ≠ n j' := fun j' h1 h2 h3 => (hn.new j' h1 h2).2 (h3 ▸ hk)
  obtain ⟨_, _, hsym, _⟩ := hA.ok k hk i hi (by omega)
  have e1 : link A k i / 4 = n 0 := by omega
  have e2 : link A k i % 4 = j := by omega
  rw [e1, e2] at hsym
  have hk1 := hA.pos k hk
  have hne : ∀ j', 1 ≤ j' → j' < 4 → j' ≠ j →
      ¬ (link A (n 0) j' ≠ 0 ∧ k = link A (n 0) j' / 4 ∧ i = link A (n 0) j' % 4) := by
    rintro j' h1 h2 h3 ⟨h4, h5, h6⟩
    obtain ⟨_, _, hs, _⟩ := hA.ok _ hn.old j' h2 h4
    rw [← h5, ← h6] at hs
    omega
  have hyes : link A (n 0) j ≠ 0 ∧ k = link A (n 0) j / 4 ∧ i = link A (n 0) j % 4 := by
    rw [hsym]; omega
  rw [link_star hA hn hk1 hi, if_neg (hkj 3 (by decide) (by decide)),
    if_neg (hkj 2 (by decide) (by decide)), if_neg (hkj 1 (by decide) (by decide)), if_neg hk0]
  interval_cases j
  · rw [if_neg (hne 3 (by decide) (by decide) (by decide)),
      if_neg (hne 2 (by decide) (by decide) (by decide)),
      if_neg (hne 1 (by decide) (by decide) (by decide)), hl]
  · rw [if_neg (hne 3 (by decide) (by decide) (by decide)),
      if_neg (hne 2 (by decide) (by decide) (by decide)), if_pos hyes]
  · rw [if_neg (hne 3 (by decide) (by decide) (by decide)), if_pos hyes]
  · rw [if_pos hyes]

/-- The other links are unchanged. -/
theorem link_star_other (hA : AdjOK A V used) (hn : NewTets n used) {k i : Nat} (hk : used k)
    (hk0 : k ≠ n 0) (hi : i < 4) (hl : link A k i / 4 ≠ n 0) :
    link (starAdj n A) k i = link A k i := by
  have hkj : ∀ j', 1 ≤ j' → j' < 4 → k ≠ n j' := fun j' h1 h2 h3 => (hn.new j' h1 h2).2 (h3 ▸ hk)
  have hk1 := hA.pos k hk
  have hne : ∀ j', 1 ≤ j' → j' < 4 →
      ¬ (link A (n 0) j' ≠ 0 ∧ k = link A (n 0) j' / 4 ∧ i = link A (n 0) j' % 4) := by
    rintro j' h1 h2 ⟨h4, h5, h6⟩
    obtain ⟨_, _, hs, _⟩ := hA.ok _ hn.old j' h2 h4
    rw [← h5, ← h6] at hs
    omega
  rw [link_star hA hn hk1 hi, if_neg (hkj 3 (by decide) (by decide)),
    if_neg (hkj 2 (by decide) (by decide)), if_neg (hkj 1 (by decide) (by decide)), if_neg hk0,
    if_neg (hne 3 (by decide) (by decide)), if_neg (hne 2 (by decide) (by decide)),
    if_neg (hne 1 (by decide) (by decide))]

theorem starVerts_new (hn : NewTets n used) (ib : Nat) {j : Nat} (hj : j < 4) :
    starVerts n ib V (n j) = (V (n 0)).set j ib := by
  have hd : ∀ j', j' < 4 → j ≠ j' → n j ≠ n j' := fun j' h1 h2 h3 => h2 (hn.inj j hj j' h1 h3)
  unfold starVerts
  interval_cases j
  · rw [if_pos rfl]
  · rw [if_neg (hd 0 (by decide) (by decide)), if_pos rfl]
  · rw [if_neg (hd 0 (by decide) (by decide)), if_neg (hd 1 (by decide) (by decide)), if_pos rfl]
  · rw [if_neg (hd 0 (by decide) (by decide)), if_neg (hd 1 (by decide) (by decide)),
      if_neg (hd 2 (by decide) (by decide)), if_pos rfl]

theorem starVerts_old (hn : NewTets n used) (ib : Nat) {k : Nat} (hk : used k) (hk0 : k ≠ n 0) :
    starVerts n ib V k = V k := by
  have hkj : ∀ j', 1 ≤ j' → j' < 4 → k ≠ n j' := fun j' h1 h2 h3 => (hn.new j' h1 h2).2 (h3 ▸ hk)
  unfold starVerts
  rw [if_neg hk0, if_neg (hkj 1 (by decide) (by decide)), if_neg (hkj 2 (by decide) (by decide)),
    if_neg (hkj 3 (by decide) (by decide))]

theorem faceTri_set_self {v : List Nat} (h4 : v.length = 4) {j : Nat} (hj : j < 4) (m : Nat) :
    faceTri 0 (v.set j m) j = faceTri 0 v j := by
  match v, h4 with
  | [a, b, c, d], _ => interval_cases j <;> rfl

theorem faceTri_set_cross {v : List Nat} (h4 : v.length = 4) {i j : Nat} (hi : i < 4) (hj : j < 4)
    (m : Nat) : faceTri 0 (v.set i m) j = faceTri 0 (v.set j m) i := by
  match v, h4 with
  | [a, b, c, d], _ =>
    interval_cases i <;> interval_cases j <;>
      simp only [faceTri, others, List.getD_cons_zero, List.getD_cons_succ, List.set_cons_zero,
        List.set_cons_succ, List.map_cons, List.map_nil] <;>
      (rw [Multiset.coe_eq_coe, List.perm_iff_count]
       intro x
       simp only [List.count_cons, List.count_nil]
       ring)

end

/-! ### C50: the star split -/

/-- The adjacency after the split is symmetric and joins faces with the same vertices. -/
theorem star_adjacency {n : Nat → Nat} {A : Nat → Nat} {V : Nat → List Nat} {used : Nat → Prop}
    (hA : AdjOK A V used) (hn : NewTets n used) (h4 : (V (n 0)).length = 4) (ib : Nat) :
    AdjOK (starAdj n A) (starVerts n ib V) (fun k => used k ∨ k = n 1 ∨ k = n 2 ∨ k = n 3) := by
  have p0 := hA.pos _ hn.old
  have hu : ∀ j < 4, used (n j) ∨ n j = n 1 ∨ n j = n 2 ∨ n j = n 3 := by
    intro j hj
    interval_cases j
    · exact .inl hn.old
    · exact .inr (.inl rfl)
    · exact .inr (.inr (.inl rfl))
    · exact .inr (.inr (.inr rfl))
  have hpos : ∀ j < 4, 1 ≤ n j := by
    intro j hj
    rcases Nat.eq_zero_or_pos j with rfl | h
    · exact p0
    · exact (hn.new j h hj).1
  have hclass : ∀ k, (used k ∨ k = n 1 ∨ k = n 2 ∨ k = n 3) →
      (∃ j < 4, k = n j) ∨ (used k ∧ ∀ j < 4, k ≠ n j) := by
    intro k hk
    by_cases h : ∃ j < 4, k = n j
    · exact .inl h
    · refine .inr ⟨?_, fun j hj he => h ⟨j, hj, he⟩⟩
      rcases hk with h' | h' | h' | h'
      · exact h'
      · exact absurd ⟨1, by decide, h'⟩ h
      · exact absurd ⟨2, by decide, h'⟩ h
      · exact absurd ⟨3, by decide, h'⟩ h
  constructor
  · intro k hk
    rcases hclass k hk with ⟨j, hj, rfl⟩ | ⟨h, _⟩
    · exact hpos j hj
    · exact hA.pos k h
  · intro k hk i hi hne
    rcases hclass k hk with ⟨j, hj, rfl⟩ | ⟨hku, hkn⟩
    · have hl := link_star_new hA hn hj hi
      by_cases hij : i = j
      · -- outer face: the link of the parent
        subst hij
        rw [if_pos rfl] at hl
        rw [hl] at hne ⊢
        obtain ⟨hq, hself, hsym, hface⟩ := hA.ok _ hn.old i hi hne
        have hmod : link A (n 0) i % 4 < 4 := Nat.mod_lt _ (by decide)
        refine ⟨.inl hq, ?_, ?_, ?_⟩
        · intro he
          rcases Nat.eq_zero_or_pos i with h0 | h0
          · subst h0; exact hself he
          · exact (hn.new i h0 hi).2 (he ▸ hq)
        · exact link_star_nbr hA hn hq hself hmod hi hsym
        · rw [starVerts_old hn ib hq hself, starVerts_new hn ib hi, faceTri_set_self h4 hi]
          exact hface
      · -- inner face
        rw [if_neg hij] at hl
        rw [hl]
        have e1 : (4 * n i + j) / 4 = n i := by omega
        have e2 : (4 * n i + j) % 4 = j := by omega
        rw [e1, e2]
        refine ⟨hu i hi, fun he => hij (hn.inj i hi j hj he), ?_, ?_⟩
        · rw [link_star_new hA hn hi hj, if_neg (Ne.symm hij)]
        · rw [starVerts_new hn ib hi, starVerts_new hn ib hj, faceTri_set_cross h4 hi hj]
    · have hk0 : k ≠ n 0 := hkn 0 (by decide)
      by_cases hto : link A k i / 4 = n 0
      · -- the old neighbour of the split tetrahedron
        have hmod : link A k i % 4 < 4 := Nat.mod_lt _ (by decide)
        have hlk : link A k i = 4 * n 0 + link A k i % 4 := by omega
        have hl := link_star_nbr hA hn hku hk0 hi hmod hlk
        obtain ⟨_, _, hsym, hface⟩ := hA.ok k hku i hi (by omega)
        rw [hto] at hsym hface
        rw [hl]
        generalize link A k i % 4 = j at *
        have e1 : (4 * n j + j) / 4 = n j := by omega
        have e2 : (4 * n j + j) % 4 = j := by omega
        rw [e1, e2]
        refine ⟨hu j hmod, (hkn j hmod).symm, ?_, ?_⟩
        · rw [link_star_new hA hn hmod hmod, if_pos rfl, hsym]
        · rw [starVerts_new hn ib hmod, starVerts_old hn ib hku hk0, faceTri_set_self h4 hmod]
          exact hface
      · -- elsewhere
        have hl := link_star_other hA hn hku hk0 hi hto
        rw [hl] at hne ⊢
        obtain ⟨hq, hself, hsym, hface⟩ := hA.ok k hku i hi hne
        have hmod : link A k i % 4 < 4 := Nat.mod_lt _ (by decide)
        refine ⟨.inl hq, hself, ?_, ?_⟩
        · rw [link_star_other hA hn hq hto hmod]
          · exact hsym
          · rw [hsym]; omega
        · rw [starVerts_old hn ib hq hto, starVerts_old hn ib hku hk0]
          exact hface

/-- Places of the four children. -/
def starPlaces (j : Nat) : List Pos := symTet.v.set j .centre

def starKids : List (Tet Pos Sym Sym Sym) := exec split4bar symSrc symTet

theorem starKids_spec : starKids.length = 4 ∧ ∀ j < 4, ∀ x, starKids[j]? = some x →
    x.v = starPlaces j ∧ x.tag = specTag .edge .strip .zero x.v ∧
    x.edg = specEdg .edge .zero x.v ∧ x.ref = specFace .face .zero x.v ∧
    x.ftag = specFace .face .zero x.v ∧ x.ori = specFace .face .one x.v := by
  have h : starKids.length = 4 ∧ ∀ j < 4, ((starKids[j]?).all fun x => decide (
      x.v = starPlaces j ∧ x.tag = specTag .edge .strip .zero x.v ∧
      x.edg = specEdg .edge .zero x.v ∧ x.ref = specFace .face .zero x.v ∧
      x.ftag = specFace .face .zero x.v ∧ x.ori = specFace .face .one x.v)) = true := by
    decide +kernel
  refine ⟨h.1, fun j hj x hx => ?_⟩
  have := h.2 j hj
  rw [hx] at this
  simpa using this

theorem starSplit_kids {ib : Nat} {t : CTet} (wf : WF t) :
    starSplit ib t = starKids.map (homC (fun _ => 0) ib (ftagLocal 0 (fun _ => 0) t) t).tet := by
  unfold starSplit starKids
  rw [← exec_map _ (homC_src 0 (fun _ => 0) (fun _ => 0) ib t), homC_tet _ _ _ wf]

/-- The star split creates four children; child `j` has the new point in place of vertex `j`, and
every edge and face inherits the tags, references and orientation of the edge or face of the
parent that carries it (the new inner ones have none). -/
theorem star_inherits {ib : Nat} {t : CTet} (wf : WF t) :
    (starSplit ib t).length = 4 ∧ ∀ j < 4, ∀ x, (starSplit ib t)[j]? = some x →
      x.v = t.v.set j ib ∧
      Child t (fun _ => 0) ib (starPlaces j) x ∧ TagsInherited t (starPlaces j) x ∧
      OriInherited t (starPlaces j) x := by
  rw [starSplit_kids wf]
  refine ⟨by rw [List.length_map]; exact starKids_spec.1, fun j hj x hx => ?_⟩
  rw [List.getElem?_map, Option.map_eq_some_iff] at hx
  obtain ⟨y, hy, rfl⟩ := hx
  obtain ⟨hv, ht, he, hr, hf, ho⟩ := starKids_spec.2 j hj y hy
  have hstrip : ftagLocal 0 (fun _ => 0) t = fun f => stripRef (t.ftag.getD f 0) := by
    funext f; simp [ftagLocal]
  refine ⟨?_, ⟨?_, ?_, ?_, ?_, ?_⟩, ?_, ?_⟩
  · have h0 := homC_tet (fun _ => 0) ib (ftagLocal 0 (fun _ => 0) t) wf
    conv_rhs => rw [← h0]
    simp only [Hom.tet, hv, starPlaces, List.map_set]; rfl
  · simp [starPlaces, symTet]
  · simp only [Hom.tet, hv]; rfl
  · simp only [Hom.tet]
    rw [he, specEdg_hom, hv]
  · simp only [Hom.tet]
    rw [hr, specRef_hom, hv]
  · simp only [Hom.tet]
    rw [hf, specFtag_hom, hv]
  · simp only [Hom.tet, TagsInherited]
    rw [ht, specTag_hom, hv, hstrip]
  · simp only [Hom.tet, OriInherited]
    rw [ho, specOri_hom, hv]

/-- Each child has a quarter of the volume of the parent, with the same orientation. -/
theorem star_volume {K : Type} [Field K] [CharZero K] {ib : Nat} {t : CTet} (wf : WF t)
    {c : Nat → Pt K} (hc : c ib = bary c t.v) :
    ∀ x ∈ starSplit ib t, volOf c x.v = volOf c t.v / 4 := by
  intro x hx
  obtain ⟨j, hj, hxj⟩ := List.mem_iff_getElem.1 hx
  obtain ⟨hlen, hall⟩ := star_inherits (ib := ib) wf
  have hj4 : j < 4 := hlen ▸ hj
  obtain ⟨hv, _⟩ := hall j hj4 x (by rw [List.getElem?_eq_getElem hj, hxj])
  rw [hv]
  have h4 := wf.v
  revert h4 hc
  generalize t.v = l
  intro hc h4
  match l, h4 with
  | [p, q, r, w], _ =>
    simp only [bary, List.getD_cons_zero, List.getD_cons_succ] at hc
    interval_cases j <;>
      simp only [volOf, List.set_cons_zero, List.set_cons_succ, List.getD_cons_zero,
        List.getD_cons_succ, hc, vol] <;> ring

/-- The faces after the split are the faces of the parent and six inner faces, each shared by two
children. -/
theorem star_faces {ib : Nat} {t : CTet} (wf : WF t) :
    ∃ inner : Multiset (Multiset Nat), inner.card = 6 ∧
      allFaces 0 ((starSplit ib t).map (·.v)) = allFaces 0 [t.v] + inner + inner := by
  obtain ⟨hlen, hall⟩ := star_inherits (ib := ib) wf
  have hv : (starSplit ib t).map (·.v) = [t.v.set 0 ib, t.v.set 1 ib, t.v.set 2 ib,
      t.v.set 3 ib] := by
    revert hlen hall
    generalize starSplit ib t = l
    intro hlen hall
    match l, hlen with
    | [a, b, c, d], _ =>
      have h0 := (hall 0 (by decide) a rfl).1
      have h1 := (hall 1 (by decide) b rfl).1
      have h2 := (hall 2 (by decide) c rfl).1
      have h3 := (hall 3 (by decide) d rfl).1
      simp only [List.map_cons, List.map_nil, h0, h1, h2, h3]
  have h4 := wf.v
  rw [hv]
  generalize t.v = v at *
  refine ⟨{faceTri 0 (v.set 0 ib) 1, faceTri 0 (v.set 0 ib) 2, faceTri 0 (v.set 0 ib) 3,
    faceTri 0 (v.set 1 ib) 2, faceTri 0 (v.set 1 ib) 3, faceTri 0 (v.set 2 ib) 3}, rfl, ?_⟩
  have e : ∀ l : List (Multiset Nat), (l : Multiset (Multiset Nat)) = l.foldr (fun a s => {a} + s) 0 := by
    intro l
    induction l with
    | nil => rfl
    | cons a l ih => rw [List.foldr_cons, ← ih, Multiset.singleton_add]; rfl
  simp only [allFaces, List.flatMap_cons, List.flatMap_nil, List.append_nil, List.cons_append,
    List.nil_append, e, List.foldr_cons, List.foldr_nil, Multiset.insert_eq_cons,
    ← Multiset.singleton_add]
  rw [faceTri_set_self h4 (j := 0) (by decide), faceTri_set_self h4 (j := 1) (by decide),
    faceTri_set_self h4 (j := 2) (by decide), faceTri_set_self h4 (j := 3) (by decide),
    faceTri_set_cross h4 (i := 1) (j := 0) (by decide) (by decide),
    faceTri_set_cross h4 (i := 2) (j := 0) (by decide) (by decide),
    faceTri_set_cross h4 (i := 3) (j := 0) (by decide) (by decide),
    faceTri_set_cross h4 (i := 2) (j := 1) (by decide) (by decide),
    faceTri_set_cross h4 (i := 3) (j := 1) (by decide) (by decide),
    faceTri_set_cross h4 (i := 3) (j := 2) (by decide) (by decide)]
  abel

/-! Example: two tetrahedra that share a face; the first one is split. -/

def adjaEx : Nat → Nat := setAt (setAt (fun _ => 0) (adjIdx 1 2) (4 * 2 + 3)) (adjIdx 2 3) (4 * 1 + 2)

example : AdjOK adjaEx (fun k => if k = 1 then [1, 2, 3, 4] else [1, 4, 2, 5])
      (fun k => k = 1 ∨ k = 2) ∧
    NewTets (fun j => if j = 0 then 1 else 6 + j) (fun k => k = 1 ∨ k = 2) := by
  refine ⟨⟨?_, ?_⟩, ⟨.inl rfl, ?_, ?_⟩⟩
  · rintro k (rfl | rfl) <;> decide
  · rintro k (rfl | rfl) i hi <;> interval_cases i <;> decide
  · intro j h1 h2
    interval_cases j <;> decide
  · intro i hi j hj
    interval_cases i <;> interval_cases j <;> decide

example : (starSplit 50 tetEx).map (·.v) =
    [[50, 3, 9, 5], [7, 50, 9, 5], [7, 3, 50, 5], [7, 3, 9, 50]] := by decide +kernel

end Mmg.Split3
