/- Lemmas on the packing of the triangles in `Pack2Model`. -/
import Verif.Pack2Lemmas

namespace Mmg.Pack2

open Mmg.Pack3 (upd upd_same upd_ne Elt eok Els packEls has REF REQ BDY CRN NOSURF)

variable {α β K : Type}

/-! ### Specification -/

/-- The adjacency table of `n` triangles of validity `ok` is symmetric and joins different valid triangles. -/
def AdjOK (ok : Nat → Bool) (n : Nat) (ad : Nat → Nat) : Prop :=
  ∀ p, 1 ≤ p → p ≤ n → ok p = true → ∀ q < 3, ad (tidx p q) ≠ 0 →
    ∃ c j, j < 3 ∧ ad (tidx p q) = 3 * c + j ∧ 1 ≤ c ∧ c ≤ n ∧ ok c = true ∧ c ≠ p ∧ ad (tidx c j) = 3 * p + q

/-- Adjacency entry with the triangle renumbered. -/
def relabel (ρ : Nat → Nat) (a : Nat) : Nat := if a = 0 then 0 else 3 * ρ (a / 3) + a % 3

theorem relabel_mk (ρ : Nat → Nat) {c j : Nat} (hc : 1 ≤ c) (hj : j < 3) : relabel ρ (3 * c + j) = 3 * ρ c + j := by
  unfold relabel
  rw [if_neg (by omega), show (3 * c + j) / 3 = c by omega, show (3 * c + j) % 3 = j by omega]

theorem tidx_inj {p q p' q' : Nat} (hp : 1 ≤ p) (hp' : 1 ≤ p') (hq : q < 3) (hq' : q' < 3) (h : tidx p q = tidx p' q') :
    p = p' ∧ q = q' := by
  unfold tidx at h; omega

/-! ### One move -/

theorem moveSide_fold {l k : Nat} (hl : 1 ≤ l) (hk : 1 ≤ k) (hlk : l ≠ k) (ad : Nat → Nat)
    (hn : ∀ i < 3, ad (tidx k i) ≠ 0 → 1 ≤ ad (tidx k i) / 3 ∧ ad (tidx k i) / 3 ≠ k ∧ ad (tidx k i) / 3 ≠ l)
    (hu : ∀ i < 3, ∀ j < 3, ad (tidx k i) = ad (tidx k j) → ad (tidx k i) ≠ 0 → i = j) :
    ∀ L : List Nat, L.Nodup → (∀ i ∈ L, i < 3) →
      (∀ j < 3, j ∉ L → (L.foldl (moveSide l k) ad) (tidx k j) = ad (tidx k j)) ∧
      (∀ i ∈ L, (L.foldl (moveSide l k) ad) (tidx l i) = ad (tidx k i)) ∧
      (∀ p q, 1 ≤ p → p ≠ k → p ≠ l → q < 3 →
        (∀ i ∈ L, ad (tidx k i) = 3 * p + q → (L.foldl (moveSide l k) ad) (tidx p q) = 3 * l + i) ∧
        ((∀ i ∈ L, ad (tidx k i) ≠ 3 * p + q) → (L.foldl (moveSide l k) ad) (tidx p q) = ad (tidx p q))) := by
  intro L
  induction L using List.reverseRecOn with
  | nil =>
    intro _ _
    exact ⟨fun _ _ _ => rfl, fun i hi => by simp at hi, fun p q _ _ _ _ => ⟨fun i hi => by simp at hi, fun _ => rfl⟩⟩
  | append_singleton L x ih =>
    intro hnd hlt
    have hx : x < 3 := hlt x (by simp)
    have hxl : x ∉ L := by
      intro h; rw [List.nodup_append] at hnd; exact hnd.2.2 x h x (by simp) rfl
    obtain ⟨i1, i2, i3⟩ := ih (List.nodup_append.1 hnd).1 (fun i hi => hlt i (by simp [hi]))
    rw [List.foldl_append, List.foldl_cons, List.foldl_nil]
    generalize hA : L.foldl (moveSide l k) ad = A at *
    have hax := i1 x hx hxl
    have hval : ∀ p q, 1 ≤ p → q < 3 → ¬ (p = k ∧ q = x) → moveSide l k A x (tidx p q) =
        if ad (tidx k x) ≠ 0 ∧ p = ad (tidx k x) / 3 ∧ q = ad (tidx k x) % 3 then 3 * l + x
        else if p = l ∧ q = x then ad (tidx k x) else A (tidx p q) := by
      intro p q hp hq hpk
      simp only [moveSide, hax]
      by_cases h0 : ad (tidx k x) = 0
      · rw [if_pos h0, if_neg (fun h => h.1 h0)]
        by_cases h1 : p = l ∧ q = x
        · rw [if_pos h1, h1.1, h1.2, upd_same]
        · rw [if_neg h1, upd_ne]
          intro h; exact h1 (tidx_inj hp hl hq hx h)
      · rw [if_neg h0, upd_ne _ _ (fun h => hpk (tidx_inj hp hk hq hx h))]
        have hn' := hn x hx h0
        by_cases h1 : p = ad (tidx k x) / 3 ∧ q = ad (tidx k x) % 3
        · rw [if_pos ⟨h0, h1⟩, h1.1, h1.2, upd_same]
        · rw [if_neg (fun h => h1 h.2), upd_ne]
          · by_cases h2 : p = l ∧ q = x
            · rw [if_pos h2, h2.1, h2.2, upd_same]
            · rw [if_neg h2, upd_ne]
              intro h; exact h2 (tidx_inj hp hl hq hx h)
          · intro h; exact h1 (tidx_inj hp hn'.1 hq (Nat.mod_lt _ (by omega)) h)
    refine ⟨?_, ?_, ?_⟩
    · intro j hj hjL
      have hjx : j ≠ x := by rintro rfl; simp at hjL
      rw [hval k j hk hj (fun h => hjx h.2), if_neg, if_neg (fun h => hlk h.1.symm), i1 j hj (by
        intro h; exact hjL (by simp [h]))]
      intro h; exact (hn x hx h.1).2.1 h.2.1.symm
    · intro i hi
      rw [hval l i hl (hlt i hi) (fun h => hlk h.1), if_neg]
      · by_cases hix : i = x
        · rw [if_pos ⟨rfl, hix⟩, hix]
        · rw [if_neg (fun h => hix h.2)]
          refine i2 i ?_
          rw [List.mem_append, List.mem_singleton] at hi
          exact hi.resolve_right hix
      · intro h; exact (hn x hx h.1).2.2 h.2.1.symm
    · intro p q hp hpk hpl hq
      obtain ⟨j1, j2⟩ := i3 p q hp hpk hpl hq
      rw [hval p q hp hq (fun h => hpk h.1)]
      constructor
      · intro i hi he
        by_cases hix : i = x
        · subst hix
          rw [if_pos ⟨by omega, by omega, by omega⟩]
        · rw [if_neg, if_neg (fun h => hpl h.1)]
          · refine j1 i ?_ he
            rw [List.mem_append, List.mem_singleton] at hi
            exact hi.resolve_right hix
          · rintro ⟨h0, h1, h2⟩
            refine hix (hu i (hlt i hi) x hx ?_ (by omega))
            omega
      · intro hno
        rw [if_neg, if_neg (fun h => hpl h.1)]
        · exact j2 (fun i hi => hno i (by simp [hi]))
        · rintro ⟨h0, h1, h2⟩
          exact hno x (by simp) (by omega)

/-! ### The loop -/

/-- Position of triangle `a` when the first `m` ones have been treated. -/
def pos (ok : Nat → Bool) (m a : Nat) : Nat := if a ≤ m then rank ok a else a

theorem pos_inj (ok : Nat → Bool) (m : Nat) {a b : Nat} (ha : ok a = true) (hb : ok b = true)
    (h : pos ok m a = pos ok m b) : a = b := by
  unfold pos at h
  have h1 := rank_le ok a
  have h2 := rank_le ok b
  split_ifs at h with h3 h4 h4
  · exact rank_inj ok ha hb h
  · omega
  · omega
  · exact h

theorem pos_pos (ok : Nat → Bool) (m : Nat) {a : Nat} (h1 : 1 ≤ a) (ha : ok a = true) : 1 ≤ pos ok m a := by
  unfold pos
  split_ifs
  · exact rank_pos ok h1 ha
  · exact h1

/-- State of the triangles when the first `m` ones have been treated. -/
structure TInv (pt : Nat → Pt α) (tri : Nat → Elt (Side β)) (adja : Nat → Nat) (n m : Nat) (s : TSt β) : Prop where
  nbl : s.nbl = rank (fun j => eok (tri j)) m + 1
  nt : s.nt = rank (fun j => eok (tri j)) m
  done : ∀ a, 1 ≤ a → a ≤ m → eok (tri a) = true → s.tri (rank (fun j => eok (tri j)) a) = renumV pt 3 (tri a)
  todo : ∀ a, m < a → s.tri a = tri a
  hole : ∀ j, rank (fun j => eok (tri j)) m < j → j ≤ m → eok (s.tri j) = false
  adja : ∀ a, 1 ≤ a → a ≤ n → eok (tri a) = true → ∀ i < 3,
    s.adja (tidx (pos (fun j => eok (tri j)) m a) i) = relabel (pos (fun j => eok (tri j)) m) (adja (tidx a i))

theorem triStep_inv (z : Side β) {pt : Nat → Pt α} {tri : Nat → Elt (Side β)} {adja : Nat → Nat} {n m : Nat} {s : TSt β}
    (hadj : AdjOK (fun j => eok (tri j)) n adja) (hm : m < n) (h : TInv pt tri adja n m s) :
    TInv pt tri adja n (m + 1) (triStep z pt s (m + 1)) := by
  obtain ⟨h1, h2, h3, h4, h5, h6⟩ := h
  have hle := rank_le (fun j => eok (tri j)) m
  unfold triStep
  rw [h4 (m + 1) (by omega)]
  cases hv : eok (tri (m + 1))
  · have er := rank_succ_neg (ok := fun j => eok (tri j)) hv
    have hpos : ∀ a, eok (tri a) = true → pos (fun j => eok (tri j)) (m + 1) a = pos (fun j => eok (tri j)) m a := by
      intro a ha
      unfold pos
      by_cases hc : a ≤ m
      · rw [if_pos hc, if_pos (by omega)]
      · rw [if_neg hc, if_neg]
        intro hc'
        rw [show a = m + 1 by omega, hv] at ha; simp at ha
    rw [if_neg (by simp)]
    refine ⟨by rw [er]; exact h1, by rw [er]; exact h2, ?_, fun a ha => h4 a (by omega), ?_, ?_⟩
    · intro a a1 a2 a3
      refine h3 a a1 ?_ a3
      by_contra hc
      rw [show a = m + 1 by omega, hv] at a3; simp at a3
    · intro j j1 j2
      rw [er] at j1
      rcases Nat.lt_or_ge m j with hj | hj
      · rw [h4 j hj, show j = m + 1 by omega]; exact hv
      · exact h5 j j1 hj
    · intro a a1 a2 a3 i hi
      rw [hpos a a3, h6 a a1 a2 a3 i hi]
      by_cases h0 : adja (tidx a i) = 0
      · rw [h0]; rfl
      · obtain ⟨c, j, hj, he, c1, c2, c3, _⟩ := hadj a a1 a2 a3 i hi h0
        rw [he, relabel_mk _ c1 hj, relabel_mk _ c1 hj, hpos c c3]
  · have er := rank_succ_pos (ok := fun j => eok (tri j)) hv
    have hv' : (fun j => eok (tri j)) (m + 1) = true := hv
    rw [if_pos rfl]
    dsimp only
    by_cases hk : m + 1 ≠ s.nbl
    · rw [if_pos hk, h1]
      rw [h1] at hk
      have hposk : pos (fun j => eok (tri j)) m (m + 1) = m + 1 := if_neg (by omega)
      have hposk' : pos (fun j => eok (tri j)) (m + 1) (m + 1) = rank (fun j => eok (tri j)) m + 1 := by
        unfold pos; rw [if_pos (le_refl _), er]
      have hpos : ∀ a, a ≠ m + 1 → pos (fun j => eok (tri j)) (m + 1) a = pos (fun j => eok (tri j)) m a := by
        intro a ha
        unfold pos
        by_cases hc : a ≤ m
        · rw [if_pos hc, if_pos (by omega)]
        · rw [if_neg hc, if_neg (by omega)]
      have hposl : ∀ a, pos (fun j => eok (tri j)) m a ≠ rank (fun j => eok (tri j)) m + 1 := by
        intro a
        unfold pos
        split_ifs with hc
        · have := rank_mono (fun j => eok (tri j)) hc; omega
        · omega
      refine ⟨by rw [er], by rw [er, h2], ?_, ?_, ?_, ?_⟩
      · intro a a1 a2 a3
        dsimp only
        by_cases ha : a = m + 1
        · rw [ha, er, upd_ne _ _ (by omega), upd_same]
        · have := rank_mono (fun j => eok (tri j)) (show a ≤ m by omega)
          rw [upd_ne _ _ (by omega), upd_ne _ _ (by omega), upd_ne _ _ (by omega)]
          exact h3 a a1 (by omega) a3
      · intro a ha
        dsimp only
        rw [upd_ne _ _ (by omega), upd_ne _ _ (by omega), upd_ne _ _ (by omega)]
        exact h4 a (by omega)
      · intro j j1 j2
        rw [er] at j1
        dsimp only
        by_cases hj : j = m + 1
        · rw [hj, upd_same]; rfl
        · rw [upd_ne _ _ hj, upd_ne _ _ (by omega), upd_ne _ _ hj]
          exact h5 j (by omega) (by omega)
      · have hback : ∀ i < 3, s.adja (tidx (m + 1) i) ≠ 0 → ∃ c j, j < 3 ∧ adja (tidx (m + 1) i) = 3 * c + j ∧ 1 ≤ c ∧ c ≤ n ∧
            eok (tri c) = true ∧ c ≠ m + 1 ∧ adja (tidx c j) = 3 * (m + 1) + i ∧
            s.adja (tidx (m + 1) i) = 3 * pos (fun j => eok (tri j)) m c + j := by
          intro i hi h0
          have e := h6 (m + 1) (by omega) (by omega) hv i hi
          rw [hposk] at e
          have h0' : adja (tidx (m + 1) i) ≠ 0 := by
            intro h0'; rw [e, h0'] at h0; exact h0 rfl
          obtain ⟨c, j, hj, he, c1, c2, c3, c4, c5⟩ := hadj (m + 1) (by omega) (by omega) hv i hi h0'
          exact ⟨c, j, hj, he, c1, c2, c3, c4, c5, by rw [e, he, relabel_mk _ c1 hj]⟩
        have mv := moveSide_fold (l := rank (fun j => eok (tri j)) m + 1) (k := m + 1) (by omega) (by omega) (by omega) s.adja
          (by
            intro i hi h0
            obtain ⟨c, j, hj, he, c1, c2, c3, c4, c5, c6⟩ := hback i hi h0
            rw [c6, show ∀ x, (3 * x + j) / 3 = x by intro x; omega]
            refine ⟨pos_pos _ m c1 c3, ?_, hposl c⟩
            intro hc
            exact c4 (pos_inj (fun j => eok (tri j)) m c3 hv (by rw [hc, hposk])))
          (by
            intro i hi j hj he h0
            obtain ⟨c, x, hx, e1, c1, c2, c3, c4, c5, c6⟩ := hback i hi h0
            obtain ⟨d, y, hy, e2, d1, d2, d3, d4, d5, d6⟩ := hback j hj (he ▸ h0)
            have e3 : pos (fun j => eok (tri j)) m c = pos (fun j => eok (tri j)) m d := by omega
            have e4 : x = y := by omega
            have e5 := pos_inj (fun j => eok (tri j)) m c3 d3 e3
            subst e4; subst e5
            omega) [0, 1, 2] (by decide) (by decide)
        obtain ⟨m1, m2, m3⟩ := mv
        have mem3 : ∀ i < 3, i ∈ [0, 1, 2] := by decide
        have lt3 : ∀ x ∈ [0, 1, 2], x < 3 := by decide
        intro a a1 a2 a3 i hi
        dsimp only
        by_cases ha : a = m + 1
        · subst ha
          have e := h6 (m + 1) a1 a2 a3 i hi
          rw [hposk] at e
          rw [hposk', m2 i (mem3 i hi), e]
          by_cases h0 : adja (tidx (m + 1) i) = 0
          · rw [h0]; rfl
          · obtain ⟨c, j, hj, he, c1, c2, c3, c4, _⟩ := hadj (m + 1) a1 a2 a3 i hi h0
            rw [he, relabel_mk _ c1 hj, relabel_mk _ c1 hj, hpos c c4]
        · rw [hpos a ha]
          have hpk : pos (fun j => eok (tri j)) m a ≠ m + 1 := by
            intro hc
            exact ha (pos_inj (fun j => eok (tri j)) m a3 hv (by rw [hc, hposk]))
          obtain ⟨n1, n2⟩ := m3 (pos (fun j => eok (tri j)) m a) i (pos_pos _ m a1 a3) hpk (hposl a) hi
          by_cases hx : ∃ x ∈ [0, 1, 2], s.adja (tidx (m + 1) x) = 3 * pos (fun j => eok (tri j)) m a + i
          · obtain ⟨x, hx1, hx2⟩ := hx
            rw [n1 x hx1 hx2]
            have := pos_pos (fun j => eok (tri j)) m a1 a3
            obtain ⟨c, j, hj, he, c1, c2, c3, c4, c5, c6⟩ := hback x (lt3 x hx1) (by omega)
            have e3 : pos (fun j => eok (tri j)) m c = pos (fun j => eok (tri j)) m a := by omega
            have e4 : j = i := by omega
            have e5 := pos_inj (fun j => eok (tri j)) m c3 a3 e3
            subst e4; subst e5
            rw [c5, relabel_mk _ (by omega) (lt3 x hx1), hposk']
          · rw [n2 (fun x hx1 hx2 => hx ⟨x, hx1, hx2⟩), h6 a a1 a2 a3 i hi]
            by_cases h0 : adja (tidx a i) = 0
            · rw [h0]; rfl
            · obtain ⟨c, j, hj, he, c1, c2, c3, c4, c5⟩ := hadj a a1 a2 a3 i hi h0
              rw [he, relabel_mk _ c1 hj, relabel_mk _ c1 hj, hpos c]
              rintro rfl
              refine hx ⟨j, mem3 j hj, ?_⟩
              have e := h6 (m + 1) c1 c2 c3 j hj
              rw [hposk] at e
              rw [e, c5, relabel_mk _ a1 hi]
    · rw [if_neg hk]
      have hk : m + 1 = s.nbl := not_not.1 hk
      rw [h1] at hk
      have hpos : ∀ a, pos (fun j => eok (tri j)) (m + 1) a = pos (fun j => eok (tri j)) m a := by
        intro a
        unfold pos
        by_cases hc : a ≤ m
        · rw [if_pos hc, if_pos (by omega)]
        · rw [if_neg hc]
          split_ifs with hc2
          · rw [show a = m + 1 by omega, er]; omega
          · rfl
      have hposf : pos (fun j => eok (tri j)) (m + 1) = pos (fun j => eok (tri j)) m := funext hpos
      refine ⟨by rw [er, h1], by rw [er, h2], ?_, ?_, ?_, ?_⟩
      · intro a a1 a2 a3
        dsimp only
        by_cases ha : a = m + 1
        · rw [ha, er, show rank (fun j => eok (tri j)) m + 1 = m + 1 by omega, upd_same]
        · have := rank_mono (fun j => eok (tri j)) (show a ≤ m by omega)
          rw [upd_ne _ _ (by omega)]
          exact h3 a a1 (by omega) a3
      · intro a ha
        dsimp only
        rw [upd_ne _ _ (by omega)]
        exact h4 a (by omega)
      · intro j j1 j2
        rw [er] at j1
        omega
      · rw [hposf]; exact h6

theorem packTri_spec (z : Side β) (pt : Nat → Pt α) {tri : Nat → Elt (Side β)} {adja : Nat → Nat} {n : Nat}
    (hadj : AdjOK (fun j => eok (tri j)) n adja) : TInv pt tri adja n n (packTri z pt n tri adja) := by
  have key : ∀ m ≤ n, TInv pt tri adja n m ((List.range' 1 m).foldl (triStep z pt) ⟨1, 0, tri, adja⟩) := by
    intro m
    induction m with
    | zero =>
      intro _
      refine ⟨rfl, rfl, fun a _ _ => by omega, fun _ _ => rfl, fun j _ _ => by omega, ?_⟩
      intro a a1 a2 a3 i hi
      have hp : ∀ a, 1 ≤ a → pos (fun j => eok (tri j)) 0 a = a := fun a ha => if_neg (by omega)
      rw [hp a a1]
      by_cases h0 : adja (tidx a i) = 0
      · show adja (tidx a i) = _
        rw [h0]; rfl
      · obtain ⟨c, j, hj, he, c1, _⟩ := hadj a a1 a2 a3 i hi h0
        show adja (tidx a i) = _
        rw [he, relabel_mk _ c1 hj, hp c c1]
    | succ m ih =>
      intro hm
      rw [foldl_range']
      exact triStep_inv z hadj (by omega) (ih (by omega))
  exact key n (le_refl _)

end Mmg.Pack2
