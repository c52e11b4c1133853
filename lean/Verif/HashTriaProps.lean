/-
C07: what the surface adjacency says about every edge, whatever the number of triangles
around it.

`sharing E v tag x` is the list of the sides that have the end points of side `x`, over all
valid triangles, purely parallel sides left out. The theorem covers triangulations without
duplicated triangles; `C07_duplicate_*` show what happens otherwise.
-/
import Verif.HashTriaPar

namespace Mmg.HTri
open Mmg.Hash

/-- The participating sides with the end points of `x`, in mesh order. -/
def sharing (E : Env) (v : Nat → Nat → Nat) (tag : Nat → Nat → BitVec 16) (x : Nat × Nat) :
    List (Nat × Nat) :=
  (sides E.nt).filter fun y => (v y.1 0 != 0 && !onlyPar (tag y.1 y.2)) && key v y == key v x

/-- `x` is a side of a valid triangle and not purely parallel. -/
def Takes (E : Env) (v : Nat → Nat → Nat) (tag : Nat → Nat → BitVec 16) (x : Nat × Nat) : Prop :=
  IsSide E x ∧ v x.1 0 ≠ 0 ∧ onlyPar (tag x.1 x.2) = false

/-- The link stored for a side. -/
def St.link (s : St) (x : Nat × Nat) : Nat := s.adj (aidx x.1 x.2)

/-- The end points of a side are those of another one (in either order). -/
def SameEnds (v : Nat → Nat → Nat) (x y : Nat × Nat) : Prop :=
  (v x.1 (inxt2 x.2) = v y.1 (inxt2 y.2) ∧ v x.1 (iprv2 x.2) = v y.1 (iprv2 y.2)) ∨
  (v x.1 (inxt2 x.2) = v y.1 (iprv2 y.2) ∧ v x.1 (iprv2 x.2) = v y.1 (inxt2 y.2))

/-- A purely parallel side lies on the edge of `x`. -/
def TouchesPar (E : Env) (v : Nat → Nat → Nat) (tag : Nat → Nat → BitVec 16) (x : Nat × Nat) :
    Prop :=
  ∃ z, IsSide E z ∧ Par v tag z ∧ SameEnds v z x

/-- The surface is described correctly. -/
structure Surface (E : Env) (v : Nat → Nat → Nat) (tag : Nat → Nat → BitVec 16)
    (pt : Nat → BitVec 16) (s : St) : Prop where
  /-- no triangle is removed or changed -/
  tris : s.v = v
  /-- a link leads to another triangle with the same edge, and back -/
  sym : ∀ x, IsSide E x → s.link x ≠ 0 → ∃ y, s.link x = 3 * y.1 + y.2 ∧
    s.link y = 3 * x.1 + x.2 ∧ Takes E v tag x ∧ Takes E v tag y ∧ y.1 ≠ x.1 ∧ SameEnds v x y
  /-- an edge of one triangle is not linked -/
  lone : ∀ x, Takes E v tag x → (sharing E v tag x).length = 1 → s.link x = 0
  /-- an edge of exactly two triangles is linked both ways -/
  two : ∀ x y, Takes E v tag x → Takes E v tag y → x ≠ y → SameEnds v x y →
    (sharing E v tag x).length = 2 → s.link x = 3 * y.1 + y.2 ∧ s.link y = 3 * x.1 + x.2
  /-- on any edge of at least two triangles exactly one pair is linked: the first side with
  the last side, third or later, on the implicit surface (the second side if none is) -/
  many : ∀ x a b r, Takes E v tag x → sharing E v tag x = a :: b :: r →
    ∃ p, p ∈ b :: r ∧ s.link a = 3 * p.1 + p.2 ∧ s.link p = 3 * a.1 + a.2 ∧
      (∀ y ∈ a :: b :: r, y ≠ a → y ≠ p → s.link y = 0) ∧
      ((∀ y ∈ r, isoSide E y = false) → p = b) ∧
      (∀ l y l', r = l ++ y :: l' → isoSide E y = true → (∀ w ∈ l', isoSide E w = false) → p = y)
  /-- the non-manifold mark is added on every side of the edges of three or more triangles,
  the boundary marks where a purely parallel side touches one of the linked sides, and no
  other bit changes -/
  tags : ∀ x, s.tag x.1 x.2 =
    addIf (TouchesPar E v tag x ∧ Takes E v tag x ∧
        ((sharing E v tag x).head? = some x ∨ s.link x ≠ 0)) bdyPar
      (addIf (Takes E v tag x ∧ 3 ≤ (sharing E v tag x).length) nom (tag x.1 x.2))
  /-- the points that receive marks -/
  points : ∀ p, s.ptag p =
    addIf (∃ z, IsSide E z ∧ (s.tag z.1 z.2 &&& nom) ≠ 0#16 ∧
        (p = v z.1 (inxt2 z.2) ∨ p = v z.1 (iprv2 z.2))) nom
      (addIf (∃ z y, IsSide E z ∧ Par v tag z ∧ Takes E v tag y ∧ SameEnds v z y ∧
        (p = v z.1 (inxt2 z.2) ∨ p = v z.1 (iprv2 z.2))) parBdyBdy (pt p))
  /-- the edge table left to the caller counts the triangles around each edge -/
  count : ∀ x, Takes E v tag x → ∃ q, Used s.h q ∧
    (s.h.item q).a = Nat.min (v x.1 (inxt2 x.2)) (v x.1 (iprv2 x.2)) ∧
    (s.h.item q).b = Nat.max (v x.1 (inxt2 x.2)) (v x.1 (iprv2 x.2)) ∧
    (s.h.item q).s = (sharing E v tag x).length

variable {E : Env} {v : Nat → Nat → Nat} {tag : Nat → Nat → BitVec 16} {pt : Nat → BitVec 16}

theorem sharing_eq (x : Nat × Nat) : sharing E v tag x = on v tag (key v x) (sides E.nt) := rfl

theorem sameEnds_iff {x y : Nat × Nat} : SameEnds v x y ↔ key v x = key v y := key_eq_iff.symm

theorem takes_iff {x : Nat × Nat} :
    Takes E v tag x ↔ x ∈ on v tag (key v x) (sides E.nt) := by
  rw [mem_on, mem_sides]
  simp only [Takes, IsSide, act, Bool.and_eq_true, bne_iff_ne, Bool.not_eq_true', and_true, ne_eq]

theorem on_takes {x e} (h : x ∈ on v tag e (sides E.nt)) : Takes E v tag x ∧ key v x = e := by
  have := (mem_on.1 h).2.2
  subst this
  exact ⟨takes_iff.2 h, rfl⟩

theorem minmax_or {a b p : Nat} : (p = Nat.min a b ∨ p = Nat.max a b) ↔ (p = a ∨ p = b) := by
  rw [minA, maxA]; split <;> tauto

theorem sameTri (G : Good E v) {x y : Nat × Nat} (hx : Takes E v tag x) (hy : Takes E v tag y)
    (hne : x ≠ y) (hk : key v x = key v y) : y.1 ≠ x.1 := by
  intro h
  obtain ⟨k, i⟩ := x
  obtain ⟨k', j⟩ := y
  obtain ⟨⟨h1, h2, h3⟩, h4, _⟩ := hx
  obtain ⟨⟨_, _, h6⟩, _, _⟩ := hy
  simp only at *
  subst h
  have hd := G.dist _ h1 h2 h4
  have hk := key_eq_iff.1 hk
  have hi : i = 0 ∨ i = 1 ∨ i = 2 := by omega
  have hj : j = 0 ∨ j = 1 ∨ j = 2 := by omega
  rcases hi with rfl | rfl | rfl <;> rcases hj with rfl | rfl | rfl <;>
      simp [inxt2, iprv2] at hk hne <;> omega

/-- `C07`: for every triangulation without duplicated triangles, any number of triangles around
an edge and any order of the triangles, the construction either reports failure because a
table growth was refused or describes the surface correctly. -/
theorem C07_surface_adjacency {np hm : Nat} (G : Good E v) (hg : ∀ c n, E.g c = some n → 1 ≤ n)
    (h1 : 1 ≤ np) (h2 : np ≤ hm) :
    (hashTria E np hm v tag pt = .fail ∧ ∃ c, E.g c = none) ∨
    ∃ s, hashTria E np hm v tag pt = .ok s ∧ Surface E v tag pt s := by
  rcases hashTria_run G hg h1 h2 with ⟨h3, x, _, h4⟩ | ⟨s1, s2, s3, h3, I1, I2, I3⟩
  · exact Or.inl ⟨h3, _, h4⟩
  right
  refine ⟨s3, h3, ?_⟩
  have hadj : ∀ x : Nat × Nat, 1 ≤ x.1 → x.2 < 3 →
      s3.link x = adjSpec E (on v tag (key v x) (sides E.nt)) x := by
    intro x hx hx'
    simp only [St.link]
    rw [I3.ha, I2.ha]; exact I1.adj x hx hx'
  have hnd : ∀ e, (on v tag e (sides E.nt)).Nodup := fun e => (nodup_sides _).filter _
  have hpne : ∀ {e a b r}, on v tag e (sides E.nt) = a :: b :: r → partner E b r ≠ a := by
    intro e a b r h h'
    have hn := hnd e
    rw [h] at hn
    have := partner_mem E b r
    rw [h'] at this
    exact (List.nodup_cons.1 hn).1 this
  have hmany : ∀ e a b r, on v tag e (sides E.nt) = a :: b :: r →
      s3.link a = code (partner E b r) ∧ s3.link (partner E b r) = code a ∧
      ∀ y ∈ a :: b :: r, y ≠ a → y ≠ partner E b r → s3.link y = 0 := by
    intro e a b r hL
    have hm : ∀ y ∈ a :: b :: r, Takes E v tag y ∧ key v y = e := fun y hy =>
      on_takes (by rw [hL]; exact hy)
    have hp := hm _ (List.mem_cons_of_mem a (partner_mem E b r))
    have ha := hm a (by simp)
    refine ⟨?_, ?_, ?_⟩
    · rw [hadj a ha.1.1.1 ha.1.1.2.2, ha.2, hL]; simp [adjSpec]
    · rw [hadj _ hp.1.1.1 hp.1.1.2.2, hp.2, hL]
      simp only [adjSpec, if_neg (hpne hL), if_true]
    · intro y hy h1 h2
      have h := hm y hy
      rw [hadj _ h.1.1.1 h.1.1.2.2, h.2, hL]
      simp only [adjSpec, if_neg h1, if_neg h2]
  refine ⟨?_, ?_, ?_, ?_, ?_, ?_, ?_, ?_⟩
  · rw [I3.hv, I2.hv]
  · intro x hx hne
    have hx0 := hadj x hx.1 hx.2.2
    have hxm : x ∈ on v tag (key v x) (sides E.nt) := by
      by_contra hc
      rw [adjSpec_not_mem hc] at hx0
      exact hne hx0
    have hlen : 1 < (on v tag (key v x) (sides E.nt)).length := by
      by_contra hc
      rw [adjSpec_short (by omega)] at hx0
      exact hne hx0
    cases hL : on v tag (key v x) (sides E.nt) with
    | nil => rw [hL] at hlen; simp at hlen
    | cons a r =>
      cases r with
      | nil => rw [hL] at hlen; simp at hlen
      | cons b r =>
        have hm : ∀ y ∈ a :: b :: r, Takes E v tag y ∧ key v y = key v x := fun y hy =>
          on_takes (by rw [hL]; exact hy)
        obtain ⟨h5, h6, h7⟩ := hmany _ a b r hL
        have hpm := List.mem_cons_of_mem a (partner_mem E b r)
        have hp := hm _ hpm
        have ha := hm a (by simp)
        have hpa := hpne hL
        rw [hL] at hxm
        have htx := (hm x hxm).1
        by_cases hxa : x = a
        · refine ⟨partner E b r, by rw [hxa]; exact h5, by rw [hxa]; exact h6, htx, hp.1, ?_, ?_⟩
          · exact sameTri G htx hp.1 (by rw [hxa]; exact hpa.symm) hp.2.symm
          · exact sameEnds_iff.2 hp.2.symm
        · by_cases hxp : x = partner E b r
          · refine ⟨a, by rw [hxp]; exact h6, by rw [hxp]; exact h5, htx, ha.1, ?_, ?_⟩
            · exact sameTri G htx ha.1 hxa ha.2.symm
            · exact sameEnds_iff.2 ha.2.symm
          · exact absurd (h7 x hxm hxa hxp) hne
  · intro x hx hlen
    rw [hadj x hx.1.1 hx.1.2.2]
    rw [sharing_eq] at hlen
    exact adjSpec_short (by omega) x
  · intro x y hx hy hxy hse hlen
    rw [sharing_eq] at hlen
    have hk := sameEnds_iff.1 hse
    have hxm := takes_iff.1 hx
    have hym := takes_iff.1 hy
    rw [← hk] at hym
    match hL : on v tag (key v x) (sides E.nt), hlen with
    | [a, b], _ =>
      obtain ⟨h5, h6, _⟩ := hmany _ a b [] hL
      have e : partner E b [] = b := rfl
      rw [e] at h5 h6
      rw [hL] at hxm hym
      simp only [List.mem_cons, List.not_mem_nil, or_false] at hxm hym
      rcases hxm with rfl | rfl <;> rcases hym with rfl | rfl
      · exact absurd rfl hxy
      · exact ⟨h5, h6⟩
      · exact ⟨h6, h5⟩
      · exact absurd rfl hxy
  · intro x a b r hx hL
    obtain ⟨h5, h6, h7⟩ := hmany _ a b r hL
    refine ⟨partner E b r, partner_mem E b r, h5, h6, h7, ?_, ?_⟩
    · intro hall
      have : ∀ l : List (Nat × Nat), (∀ y ∈ l, isoSide E y = false) → partner E b l = b := by
        intro l
        induction l with
        | nil => intro _; rfl
        | cons c l ih =>
          intro hc
          have e : partner E b (c :: l) = partner E (if isoSide E c then c else b) l := rfl
          rw [e, hc c (by simp)]
          exact ih fun y hy => hc y (by simp [hy])
      exact this r hall
    · intro l y l' hr hy hl'
      subst hr
      have : ∀ (l' : List (Nat × Nat)) b, (∀ w ∈ l', isoSide E w = false) → partner E b l' = b := by
        intro l'
        induction l' with
        | nil => intro _ _; rfl
        | cons c l ih =>
          intro b hc
          have e : partner E b (c :: l) = partner E (if isoSide E c then c else b) l := rfl
          rw [e, hc c (by simp)]
          exact ih _ fun y hy => hc y (by simp [hy])
      have e : partner E b (l ++ y :: l') =
          partner E (if isoSide E y then y else partner E b l) l' := by
        simp [partner, List.foldl_append]
      rw [e, if_pos hy]
      exact this l' y hl'
  · intro x
    rw [I3.tag, I2.htag, I1.tag]
    have e1 : (if 3 ≤ (on v tag (key v x) (sides E.nt)).length ∧
        x ∈ on v tag (key v x) (sides E.nt) then tag x.1 x.2 ||| nom else tag x.1 x.2) =
        addIf (Takes E v tag x ∧ 3 ≤ (sharing E v tag x).length) nom (tag x.1 x.2) := by
      rw [takes_iff, sharing_eq]
      by_cases hc : 3 ≤ (on v tag (key v x) (sides E.nt)).length ∧
        x ∈ on v tag (key v x) (sides E.nt)
      · rw [if_pos hc, addIf_pos ⟨hc.2, hc.1⟩]
      · rw [if_neg hc, addIf_neg (fun h => hc ⟨h.2, h.1⟩)]
    rw [e1]
    apply addIf_congr
    have c1 : (∃ z ∈ sides E.nt, Par v tag z ∧ key v z = key v x) ↔ TouchesPar E v tag x := by
      simp only [TouchesPar, mem_sides, IsSide, sameEnds_iff]
    rw [c1]
    apply and_congr_right
    intro _
    rw [takes_iff, sharing_eq]
    constructor
    · intro hM
      have hm := hM.mem
      refine ⟨hm, ?_⟩
      cases hL : on v tag (key v x) (sides E.nt) with
      | nil => rw [hL] at hm; simp at hm
      | cons a r =>
        cases r with
        | nil => rw [hL] at hM; left; simp only [Marked] at hM; simp [hM]
        | cons b r =>
          rw [hL] at hM
          obtain ⟨h5, h6, h7⟩ := hmany _ a b r hL
          rcases hM with rfl | h
          · left; rfl
          · right
            rw [h, h6]
            have := (on_takes (E := E) (v := v) (tag := tag) (x := a) (e := key v x)
              (by rw [hL]; simp)).1.1.1
            simp only [code]; omega
    · rintro ⟨hm, h⟩
      cases hL : on v tag (key v x) (sides E.nt) with
      | nil => rw [hL] at hm; simp at hm
      | cons a r =>
        cases r with
        | nil =>
          rw [hL] at hm
          simp only [List.mem_cons, List.not_mem_nil, or_false] at hm
          exact hm
        | cons b r =>
          rw [hL] at h hm
          rcases h with h | h
          · left; simpa using h.symm
          · by_contra hc
            simp only [Marked, not_or] at hc
            exact h ((hmany _ a b r hL).2.2 x hm hc.1 hc.2)
  · intro p
    rw [I3.ptag, I2.ptag, I2.hv, I3.tag]
    have c1 : (∃ z ∈ sides E.nt, Par v tag z ∧ on v tag (key v z) (sides E.nt) ≠ [] ∧
        (p = (key v z).1 ∨ p = (key v z).2.1)) ↔
        ∃ z y, IsSide E z ∧ Par v tag z ∧ Takes E v tag y ∧ SameEnds v z y ∧
        (p = v z.1 (inxt2 z.2) ∨ p = v z.1 (iprv2 z.2)) := by
      constructor
      · rintro ⟨z, h5, h6, h7, h8⟩
        obtain ⟨y, hy⟩ := List.exists_mem_of_ne_nil _ h7
        obtain ⟨h9, h10⟩ := on_takes hy
        exact ⟨z, y, mem_sides.1 h5, h6, h9, sameEnds_iff.2 h10.symm, minmax_or.1 h8⟩
      · rintro ⟨z, y, h5, h6, h7, h8, h9⟩
        refine ⟨z, mem_sides.2 h5, h6, ?_, minmax_or.2 h9⟩
        have := takes_iff.1 h7
        rw [← sameEnds_iff.1 h8] at this
        exact List.ne_nil_of_mem this
    rw [addIf_congr c1]
    apply addIf_congr
    simp only [mem_sides, IsSide]
  · intro x hx
    have hm := takes_iff.1 hx
    have hI := I1.inv
    have hC := I1.cnt
    rw [← I2.hh, ← I3.hh] at hI hC
    have hsome : ∃ w, (on v tag (key v x) (sides E.nt)).head?.map code = some w := by
      cases hL : on v tag (key v x) (sides E.nt) with
      | nil => rw [hL] at hm; simp at hm
      | cons a r => exact ⟨_, rfl⟩
    obtain ⟨w, hw⟩ := hsome
    obtain ⟨q, hq, hk⟩ := hI.complete (key v x) w hw
    refine ⟨q, hq, congrArg Prod.fst hk, congrArg (fun t => t.2.1) hk, ?_⟩
    rw [hC.used q hq, hk]; rfl

/-! ### Concrete cases -/

/-- Vertices given by a table (triangle 1 first). -/
def tab (l : List (List Nat)) (k i : Nat) : Nat := ((l.getD (k - 1) []).getD i 0)

/-- Four triangles: three around the edge 1-2 and one more on the edge 2-3. -/
def fan : Nat → Nat → Nat := tab [[1, 2, 3], [2, 1, 4], [1, 2, 5], [3, 2, 6]]

def envEx (n : Nat) (iso : Bool) : Env := ⟨n, fun _ => 10, iso, 10, fun _ => some 5⟩

theorem fan_good : Good (envEx 4 false) fan := by
  constructor
  · intro k h1 h2 _ i hi
    have hk : k = 1 ∨ k = 2 ∨ k = 3 ∨ k = 4 := by simp only [envEx] at h2; omega
    have : i = 0 ∨ i = 1 ∨ i = 2 := by omega
    rcases hk with rfl | rfl | rfl | rfl <;> rcases this with rfl | rfl | rfl <;> decide
  · intro k h1 h2 _
    have : k = 1 ∨ k = 2 ∨ k = 3 ∨ k = 4 := by simp only [envEx] at h2; omega
    rcases this with rfl | rfl | rfl | rfl <;> decide
  · intro k k' h1 h2 h3 h4 _ _ hne hall
    have hk : k = 1 ∨ k = 2 ∨ k = 3 ∨ k = 4 := by simp only [envEx] at h2; omega
    have hk' : k' = 1 ∨ k' = 2 ∨ k' = 3 ∨ k' = 4 := by simp only [envEx] at h4; omega
    obtain ⟨j0, hj0, e0⟩ := hall 0 (by omega)
    obtain ⟨j1, hj1, e1⟩ := hall 1 (by omega)
    obtain ⟨j2, hj2, e2⟩ := hall 2 (by omega)
    have a0 : j0 = 0 ∨ j0 = 1 ∨ j0 = 2 := by omega
    have a1 : j1 = 0 ∨ j1 = 1 ∨ j1 = 2 := by omega
    have a2 : j2 = 0 ∨ j2 = 1 ∨ j2 = 2 := by omega
    rcases hk with rfl | rfl | rfl | rfl <;> rcases hk' with rfl | rfl | rfl | rfl <;>
      first
      | exact hne rfl
      | (rcases a0 with rfl | rfl | rfl <;> first
          | exact absurd e0 (by decide)
          | (rcases a1 with rfl | rfl | rfl <;> first
            | exact absurd e1 (by decide)
            | (rcases a2 with rfl | rfl | rfl <;> exact absurd e2 (by decide))))

/-- Test on a successful run. -/
def okAnd (r : Outcome St) (p : St → Bool) : Bool :=
  match r with
  | .ok s => p s
  | _ => false

/-- The hypotheses of `C07_surface_adjacency` hold for `fan`: the edge 1-2 of three triangles is
marked in all of them and links the first two, the edge 2-3 of two triangles is linked and not
marked. -/
example : okAnd (hashTria (envEx 4 false) 6 22 fan (fun _ _ => 0) (fun _ => 0)) (fun s =>
    s.adj (aidx 1 2) == 8 && s.adj (aidx 2 2) == 5 && s.adj (aidx 3 2) == 0 &&
    s.adj (aidx 1 0) == 14 && s.adj (aidx 4 2) == 3 &&
    s.tag 1 2 == 8#16 && s.tag 2 2 == 8#16 && s.tag 3 2 == 8#16 && s.tag 1 0 == 0#16 &&
    s.ptag 1 == 8#16 && s.ptag 2 == 8#16 && s.ptag 3 == 0#16) = true := by decide +kernel

example : ∃ s, hashTria (envEx 4 false) 6 22 fan (fun _ _ => 0) (fun _ => 0) = .ok s ∧
    Surface (envEx 4 false) fan (fun _ _ => 0) (fun _ => 0) s := by
  rcases C07_surface_adjacency (tag := fun _ _ => 0) (pt := fun _ => 0) fan_good
    (fun c n h => by simp [envEx] at h; omega) (np := 6) (hm := 22) (by omega) (by omega) with
    ⟨_, c, h⟩ | h
  · simp [envEx] at h
  · exact h

/-! ### Duplicated triangles -/

/-- Two triangles sharing the edge 1-2, the second one given twice. -/
def dupl : Nat → Nat → Nat := tab [[1, 2, 3], [2, 1, 4], [4, 2, 1]]

/-- `C07`, duplicates: the duplicate is discarded only after it has been met on the shared
edge, so that a regular edge between the two remaining triangles stays marked non-manifold
(and its end points too). -/
theorem C07_duplicate_marks_regular_edge :
    okAnd (hashTria (envEx 3 false) 4 14 dupl (fun _ _ => 0) (fun _ => 0)) (fun s =>
      s.v 3 0 == 0 && s.v 1 0 != 0 && s.v 2 0 != 0 &&
      s.adj (aidx 1 2) == 8 && s.adj (aidx 2 2) == 5 &&
      s.tag 1 2 == 8#16 && s.tag 2 2 == 8#16 && s.ptag 1 == 8#16 && s.ptag 2 == 8#16) = true := by
  decide +kernel

/-- `C07`, duplicates on the implicit surface: the discarded triangle takes over the link, the
triangle 1 ends up adjacent to a deleted triangle and triangle 2 loses its neighbour. -/
theorem C07_duplicate_takes_link :
    okAnd (hashTria (envEx 3 true) 4 14 dupl (fun _ _ => 0) (fun _ => 0)) (fun s =>
      s.v 3 0 == 0 && s.v 1 0 != 0 && s.v 2 0 != 0 &&
      s.adj (aidx 1 2) == 3 * 3 + 0 && s.adj (aidx 2 2) == 0) = true := by
  decide +kernel

/-- The four faces of a tetrahedron, the last one given twice. -/
def tetSurf : Nat → Nat → Nat := tab [[1, 2, 3], [1, 4, 2], [1, 3, 4], [2, 4, 3], [4, 3, 2]]

/-- `C07`, duplicates: a duplicate of a triangle none of whose edges was stored by the original
is not discarded. -/
theorem C07_duplicate_kept :
    okAnd (hashTria (envEx 5 false) 4 14 tetSurf (fun _ _ => 0) (fun _ => 0)) (fun s =>
      s.v 4 0 != 0 && s.v 5 0 != 0 && s.tag 4 0 == 8#16 && s.tag 5 0 == 8#16) = true := by
  decide +kernel

end Mmg.HTri
