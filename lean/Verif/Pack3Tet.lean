/- Lemmas on the packing of the elements in `Pack3Model`. -/
import Verif.Pack3Lemmas

namespace Mmg.Pack3

variable {β : Type}

/-! ### Specification -/

/-- Element `a` is a valid element of the array. -/
def Val (s : Tets β) (a : Nat) : Prop := 1 ≤ a ∧ a ≤ s.ne ∧ eok (s.el a) = true

/-- The adjacency table is symmetric and joins different valid elements. -/
def AdjOK (s : Tets β) : Prop := ∀ p, Val s p → ∀ q < 4, s.adja (idx p q) ≠ 0 →
  ∃ c j, j < 4 ∧ s.adja (idx p q) = 4 * c + j ∧ Val s c ∧ c ≠ p ∧ s.adja (idx c j) = 4 * p + q

/-- Adjacency entry with the element renumbered. -/
def relabel (ρ : Nat → Nat) (a : Nat) : Nat := if a = 0 then 0 else 4 * ρ (a / 4) + a % 4

/-- `s'` is `s` with the valid elements renumbered by `ρ`. -/
structure Renum (b : Bool) (ρ : Nat → Nat) (s s' : Tets β) : Prop where
  val : ∀ a, Val s a → Val s' (ρ a)
  el : ∀ a, Val s a → s'.el (ρ a) = s.el a
  adja : b = true → ∀ a, Val s a → ∀ i < 4, s'.adja (idx (ρ a) i) = relabel ρ (s.adja (idx a i))
  inj : ∀ a c, Val s a → Val s c → ρ a = ρ c → a = c
  surj : ∀ j, Val s' j → ∃ a, Val s a ∧ ρ a = j

theorem relabel_mk (ρ : Nat → Nat) {c j : Nat} (hc : 1 ≤ c) (hj : j < 4) : relabel ρ (4 * c + j) = 4 * ρ c + j := by
  unfold relabel
  rw [if_neg (by omega), show (4 * c + j) / 4 = c by omega, show (4 * c + j) % 4 = j by omega]

theorem idx_inj {p q p' q' : Nat} (hp : 1 ≤ p) (hp' : 1 ≤ p') (hq : q < 4) (hq' : q' < 4) (h : idx p q = idx p' q') :
    p = p' ∧ q = q' := by
  unfold idx at h; omega

theorem Renum.refl (b : Bool) (s : Tets β) (hadj : b = true → AdjOK s) : Renum b id s s := by
  refine ⟨fun a h => h, fun a _ => rfl, fun hb a h i hi => ?_, fun a c _ _ h => h, fun j h => ⟨j, h, rfl⟩⟩
  unfold relabel
  split_ifs with h0
  · exact h0
  · simp only [id]; omega

theorem Renum.adjOK {b : Bool} {ρ : Nat → Nat} {s s' : Tets β} (h : Renum b ρ s s') (hb : b = true) (ha : AdjOK s) :
    AdjOK s' := by
  intro p hp q hq hne
  obtain ⟨a, hva, rfl⟩ := h.surj p hp
  rw [h.adja hb a hva q hq] at hne ⊢
  have h0 : s.adja (idx a q) ≠ 0 := by
    intro h0; rw [h0] at hne; exact hne rfl
  obtain ⟨c, j, hj, he, hvc, hca, hback⟩ := ha a hva q hq h0
  refine ⟨ρ c, j, hj, ?_, h.val c hvc, fun hc => hca (h.inj c a hvc hva hc), ?_⟩
  · rw [he, relabel_mk ρ hvc.1 hj]
  · rw [h.adja hb c hvc j hj, hback, relabel_mk ρ hva.1 hq]

theorem Renum.trans {b : Bool} {ρ σ : Nat → Nat} {s s1 s2 : Tets β} (h1 : Renum b ρ s s1) (h2 : Renum b σ s1 s2)
    (ha : b = true → AdjOK s) : Renum b (fun a => σ (ρ a)) s s2 := by
  refine ⟨fun a h => h2.val _ (h1.val a h), fun a h => ?_, fun hb a h i hi => ?_, ?_, ?_⟩
  · rw [h2.el _ (h1.val a h), h1.el a h]
  · rw [h2.adja hb _ (h1.val a h) i hi, h1.adja hb a h i hi]
    by_cases h0 : s.adja (idx a i) = 0
    · rw [h0]; rfl
    · obtain ⟨c, j, hj, he, hvc, _, _⟩ := ha hb a h i hi h0
      rw [he, relabel_mk ρ hvc.1 hj, relabel_mk σ (h1.val c hvc).1 hj, relabel_mk (fun a => σ (ρ a)) hvc.1 hj]
  · intro a c hva hvc h
    exact h1.inj a c hva hvc (h2.inj _ _ (h1.val a hva) (h1.val c hvc) h)
  · intro j hj
    obtain ⟨x, hx, rfl⟩ := h2.surj j hj
    obtain ⟨a, ha, rfl⟩ := h1.surj x hx
    exact ⟨a, ha, rfl⟩

/-! ### One move -/

/-- One turn of the loop of `moveAdja`. -/
def moveOne (k last : Nat) (ad : Nat → Nat) (i : Nat) : Nat → Nat :=
  let a := ad (idx last i)
  let ad1 := upd ad (idx k i) a
  if a = 0 then ad1 else upd ad1 (idx (a / 4) (a % 4)) (4 * k + i)

theorem moveAdja_fold {k last : Nat} (hk : 1 ≤ k) (hl : 1 ≤ last) (hkl : k ≠ last) (ad : Nat → Nat)
    (hn : ∀ i < 4, ad (idx last i) ≠ 0 → 1 ≤ ad (idx last i) / 4 ∧ ad (idx last i) / 4 ≠ last ∧
      ad (idx last i) / 4 ≠ k)
    (hu : ∀ i < 4, ∀ j < 4, ad (idx last i) = ad (idx last j) → ad (idx last i) ≠ 0 → i = j) :
    ∀ l : List Nat, l.Nodup → (∀ i ∈ l, i < 4) →
      (∀ j < 4, (l.foldl (moveOne k last) ad) (idx last j) = ad (idx last j)) ∧
      (∀ i ∈ l, (l.foldl (moveOne k last) ad) (idx k i) = ad (idx last i)) ∧
      (∀ p q, 1 ≤ p → p ≠ k → p ≠ last → q < 4 →
        (∀ i ∈ l, ad (idx last i) = 4 * p + q → (l.foldl (moveOne k last) ad) (idx p q) = 4 * k + i) ∧
        ((∀ i ∈ l, ad (idx last i) ≠ 4 * p + q) → (l.foldl (moveOne k last) ad) (idx p q) = ad (idx p q))) := by
  intro l
  induction l using List.reverseRecOn with
  | nil =>
    intro _ _
    exact ⟨fun _ _ => rfl, fun i hi => by simp at hi, fun p q _ _ _ _ => ⟨fun i hi => by simp at hi, fun _ => rfl⟩⟩
  | append_singleton l x ih =>
    intro hnd hlt
    have hx : x < 4 := hlt x (by simp)
    have hxl : x ∉ l := by
      intro h; rw [List.nodup_append] at hnd; exact hnd.2.2 x h x (by simp) rfl
    obtain ⟨i1, i2, i3⟩ := ih (List.nodup_append.1 hnd).1 (fun i hi => hlt i (by simp [hi]))
    rw [List.foldl_append, List.foldl_cons, List.foldl_nil]
    generalize hA : l.foldl (moveOne k last) ad = A at *
    have hax := i1 x hx
    have hval : ∀ p q, 1 ≤ p → q < 4 → moveOne k last A x (idx p q) =
        if ad (idx last x) ≠ 0 ∧ p = ad (idx last x) / 4 ∧ q = ad (idx last x) % 4 then 4 * k + x
        else if p = k ∧ q = x then ad (idx last x) else A (idx p q) := by
      intro p q hp hq
      simp only [moveOne, hax]
      by_cases h0 : ad (idx last x) = 0
      · rw [if_pos h0, if_neg (fun h => h.1 h0)]
        by_cases h1 : p = k ∧ q = x
        · rw [if_pos h1, h1.1, h1.2, upd_same]
        · rw [if_neg h1, upd_ne]
          intro h; exact h1 (idx_inj hp hk hq hx h)
      · rw [if_neg h0]
        have hn' := hn x hx h0
        by_cases h1 : p = ad (idx last x) / 4 ∧ q = ad (idx last x) % 4
        · rw [if_pos ⟨h0, h1⟩, h1.1, h1.2, upd_same]
        · rw [if_neg (fun h => h1 h.2), upd_ne]
          · by_cases h2 : p = k ∧ q = x
            · rw [if_pos h2, h2.1, h2.2, upd_same]
            · rw [if_neg h2, upd_ne]
              intro h; exact h2 (idx_inj hp hk hq hx h)
          · intro h; exact h1 (idx_inj hp hn'.1 hq (Nat.mod_lt _ (by omega)) h)
    refine ⟨?_, ?_, ?_⟩
    · intro j hj
      rw [hval last j hl hj, if_neg, if_neg (fun h => hkl h.1.symm), i1 j hj]
      intro h; exact (hn x hx h.1).2.1 h.2.1.symm
    · intro i hi
      rw [hval k i hk (hlt i hi), if_neg]
      · by_cases hix : i = x
        · rw [if_pos ⟨rfl, hix⟩, hix]
        · rw [if_neg (fun h => hix h.2)]
          refine i2 i ?_
          rw [List.mem_append, List.mem_singleton] at hi
          exact hi.resolve_right hix
      · intro h; exact (hn x hx h.1).2.2 h.2.1.symm
    · intro p q hp hpk hpl hq
      obtain ⟨j1, j2⟩ := i3 p q hp hpk hpl hq
      rw [hval p q hp hq]
      constructor
      · intro i hi he
        by_cases hix : i = x
        · subst hix
          rw [if_pos ⟨by omega, by omega, by omega⟩]
        · rw [if_neg, if_neg (fun h => hpk h.1)]
          · refine j1 i ?_ he
            rw [List.mem_append, List.mem_singleton] at hi
            exact hi.resolve_right hix
          · rintro ⟨h0, h1, h2⟩
            refine hix (hu i (hlt i hi) x hx ?_ (by omega))
            omega
      · intro hno
        rw [if_neg, if_neg (fun h => hpk h.1)]
        · exact j2 (fun i hi => hno i (by simp [hi]))
        · rintro ⟨h0, h1, h2⟩
          exact hno x (by simp) (by omega)

theorem moveAdja_eq (k last : Nat) (ad : Nat → Nat) : moveAdja k last ad = [0, 1, 2, 3].foldl (moveOne k last) ad := rfl

/-- The state after filling the hole `k` with the last element. -/
def fillHole (z : β) (b : Bool) (k : Nat) (s : Tets β) : Tets β :=
  delLastElt z b { s with
    el := upd s.el k (s.el s.ne)
    adja := if b then moveAdja k s.ne s.adja else s.adja }

theorem fillHole_renum (z : β) (b : Bool) {k : Nat} {s : Tets β} (hk : 1 ≤ k) (hkn : k < s.ne)
    (hhole : eok (s.el k) = false) (hlast : eok (s.el s.ne) = true) (ha : b = true → AdjOK s) :
    Renum b (fun a => if a = s.ne then k else a) s (fillHole z b k s) ∧
    k ≤ (fillHole z b k s).ne ∧ (fillHole z b k s).ne < s.ne ∧
    eok ((fillHole z b k s).el (fillHole z b k s).ne) = true ∧
    (∀ j, j ≠ k → j ≠ s.ne → (fillHole z b k s).el j = s.el j) ∧ eok ((fillHole z b k s).el k) = true := by
  have el_k : (fillHole z b k s).el k = s.el s.ne := by
    show upd (upd s.el k (s.el s.ne)) s.ne _ k = _
    rw [upd_ne _ _ (by omega), upd_same]
  have el_n : eok ((fillHole z b k s).el s.ne) = false := by
    show eok (upd (upd s.el k (s.el s.ne)) s.ne _ s.ne) = _
    rw [upd_same]; rfl
  have el_j : ∀ j, j ≠ k → j ≠ s.ne → (fillHole z b k s).el j = s.el j := by
    intro j h1 h2
    show upd (upd s.el k (s.el s.ne)) s.ne _ j = _
    rw [upd_ne _ _ h2, upd_ne _ _ h1]
  have hne : (fillHole z b k s).ne = lastUsed (fun j => eok ((fillHole z b k s).el j)) s.ne := rfl
  obtain ⟨la, lb, lc⟩ := lastUsed_spec (fun j => eok ((fillHole z b k s).el j)) s.ne
  rw [← hne] at la lb lc
  have okk : eok ((fillHole z b k s).el k) = true := by rw [el_k]; exact hlast
  have hk' : k ≤ (fillHole z b k s).ne := by
    by_contra hc
    have := lc k (by omega) (by omega)
    rw [okk] at this; simp at this
  have hl' : (fillHole z b k s).ne ≠ s.ne := by
    intro h
    rcases lb with lb | lb
    · omega
    · rw [h, el_n] at lb; simp at lb
  have hval : ∀ a, Val s a → a ≠ s.ne → a ≠ k → Val (fillHole z b k s) a := by
    intro a hv h1 h2
    have e : eok ((fillHole z b k s).el a) = true := by rw [el_j a h2 h1]; exact hv.2.2
    refine ⟨hv.1, ?_, e⟩
    by_contra hc
    have := lc a (by omega) hv.2.1
    rw [e] at this; simp at this
  have hvk : Val (fillHole z b k s) k := ⟨hk, hk', okk⟩
  have notk : ∀ a, Val s a → a ≠ k := by
    rintro a hv rfl
    rw [hv.2.2] at hhole; simp at hhole
  refine ⟨⟨?_, ?_, ?_, ?_, ?_⟩, hk', by omega, ?_, el_j, okk⟩
  · intro a hv
    by_cases h : a = s.ne
    · simp only [h, if_true]; exact hvk
    · simp only [h, if_false]; exact hval a hv h (notk a hv)
  · intro a hv
    by_cases h : a = s.ne
    · simp only [h, if_true]; exact el_k
    · simp only [h, if_false]; exact el_j a (notk a hv) h
  · intro hb a hv i hi
    subst hb
    have ha := ha rfl
    have hvn : Val s s.ne := ⟨by omega, le_refl _, hlast⟩
    have zero : ∀ p q, 1 ≤ p → p ≠ s.ne → q < 4 →
        (fillHole z true k s).adja (idx p q) = moveAdja k s.ne s.adja (idx p q) := by
      intro p q hp hpn hq
      show (if idx s.ne 0 ≤ idx p q ∧ idx p q < idx s.ne 0 + 4 then 0 else moveAdja k s.ne s.adja (idx p q)) = _
      rw [if_neg]
      unfold idx; omega
    have mv := moveAdja_fold (k := k) (last := s.ne) hk (by omega) (by omega) s.adja
      (by
        intro i hi h0
        obtain ⟨c, j, hj, he, hvc, hca, _⟩ := ha s.ne hvn i hi h0
        rw [he, show (4 * c + j) / 4 = c by omega]
        exact ⟨hvc.1, hca, notk c hvc⟩)
      (by
        intro i hi j hj he h0
        obtain ⟨c, x, hx, he1, _, _, hb1⟩ := ha s.ne hvn i hi h0
        obtain ⟨c', x', hx', he2, _, _, hb2⟩ := ha s.ne hvn j hj (he ▸ h0)
        have h1 : c = c' := by omega
        have h2 : x = x' := by omega
        subst h1; subst h2
        omega) [0, 1, 2, 3] (by decide) (by decide)
    rw [← moveAdja_eq] at mv
    obtain ⟨m1, m2, m3⟩ := mv
    have mem4 : ∀ i < 4, i ∈ [0, 1, 2, 3] := by decide
    by_cases h : a = s.ne
    · simp only [h, if_true]
      rw [zero k i hk (by omega) hi, m2 i (mem4 i hi)]
      by_cases h0 : s.adja (idx s.ne i) = 0
      · rw [h0]; rfl
      · obtain ⟨c, j, hj, he, hvc, hca, _⟩ := ha s.ne hvn i hi h0
        rw [he, relabel_mk _ hvc.1 hj, if_neg hca]
    · simp only [h, if_false]
      rw [zero a i hv.1 h hi]
      obtain ⟨n1, n2⟩ := m3 a i hv.1 (notk a hv) h hi
      by_cases h0 : s.adja (idx a i) = 0
      · rw [n2, h0]; rfl
        intro i' hi' he
        have hi4 : i' < 4 := by
          have : ∀ x ∈ [0, 1, 2, 3], x < 4 := by decide
          exact this i' hi'
        obtain ⟨c, j, hj, he1, hvc, hca, hb1⟩ := ha s.ne hvn i' hi4 (by have := hv.1; omega)
        have h1 : c = a := by omega
        have h2 : j = i := by omega
        rw [h1, h2, h0] at hb1; omega
      · obtain ⟨c, j, hj, he, hvc, hca, hb1⟩ := ha a hv i hi h0
        rw [he, relabel_mk _ hvc.1 hj]
        by_cases hc : c = s.ne
        · rw [if_pos hc]
          rw [hc] at hb1
          exact n1 j (mem4 j hj) hb1
        · rw [if_neg hc, n2, he]
          intro i' hi' he'
          have hi4 : i' < 4 := by
            have : ∀ x ∈ [0, 1, 2, 3], x < 4 := by decide
            exact this i' hi'
          obtain ⟨c', j', hj', he1, _, _, hb2⟩ := ha s.ne hvn i' hi4 (by have := hv.1; omega)
          have h1 : c' = a := by omega
          have h2 : j' = i := by omega
          rw [h1, h2] at hb2; omega
  · intro a c hva hvc h
    have := notk a hva
    have := notk c hvc
    split_ifs at h <;> omega
  · intro j hj
    by_cases hjk : j = k
    · exact ⟨s.ne, ⟨by omega, le_refl _, hlast⟩, by rw [if_pos rfl, hjk]⟩
    · have hjn : j ≠ s.ne := by have := hj.2.1; omega
      refine ⟨j, ⟨hj.1, by have := hj.2.1; omega, ?_⟩, if_neg hjn⟩
      rw [← el_j j hjk hjn]; exact hj.2.2
  · rcases lb with lb | lb
    · omega
    · exact lb

theorem tetLoop_spec (z : β) (b : Bool) : ∀ (f k : Nat) (s : Tets β), 1 ≤ k → k ≤ s.ne → s.ne + 1 - k ≤ f →
    (b = true → AdjOK s) → eok (s.el s.ne) = true → (∀ j, 1 ≤ j → j < k → eok (s.el j) = true) →
    ∃ s' ρ, tetLoop z b f k s = some s' ∧ Renum b ρ s s' ∧ 1 ≤ s'.ne ∧ s'.ne ≤ s.ne ∧
      ∀ j, 1 ≤ j → j ≤ s'.ne → eok (s'.el j) = true := by
  intro f
  induction f with
  | zero => intro k s h1 h2 h3; omega
  | succ f ih =>
    intro k s h1 h2 h3 ha hl hlow
    simp only [tetLoop]
    by_cases hk : eok (s.el k) = true
    · rw [if_pos hk]
      have hlow' : ∀ j, 1 ≤ j → j < k + 1 → eok (s.el j) = true := by
        intro j a b
        by_cases hj : j = k
        · rw [hj]; exact hk
        · exact hlow j a (by omega)
      by_cases h4 : k + 1 < s.ne
      · rw [if_pos h4]
        exact ih (k + 1) s (by omega) (by omega) (by omega) ha hl hlow'
      · rw [if_neg h4]
        refine ⟨s, id, rfl, Renum.refl b s ha, by omega, le_refl _, fun j a b => ?_⟩
        by_cases hj : j = s.ne
        · rw [hj]; exact hl
        · exact hlow' j a (by omega)
    · have hk' : eok (s.el k) = false := by simpa using hk
      have hkn : k < s.ne := by
        rcases Nat.lt_or_ge k s.ne with h | h
        · exact h
        · have : k = s.ne := by omega
          rw [this] at hk; exact absurd hl hk
      rw [if_neg hk, if_neg (by rw [hl]; simp)]
      obtain ⟨r, b1, b2, b3, b4, b5⟩ := fillHole_renum z b h1 hkn hk' hl ha
      rw [← fillHole]
      generalize fillHole z b k s = s1 at *
      have hlow' : ∀ j, 1 ≤ j → j < k + 1 → eok (s1.el j) = true := by
        intro j a c
        by_cases hj : j = k
        · rw [hj]; exact b5
        · rw [b4 j hj (by omega)]; exact hlow j a (by omega)
      by_cases h4 : k + 1 < s1.ne
      · rw [if_pos h4]
        obtain ⟨s', ρ, e1, e2, e3, e4, e5⟩ := ih (k + 1) s1 (by omega) (by omega) (by omega)
          (fun hb => r.adjOK hb (ha hb)) b3 hlow'
        exact ⟨s', _, e1, r.trans e2 ha, e3, by omega, e5⟩
      · rw [if_neg h4]
        refine ⟨s1, _, rfl, r, by omega, by omega, fun j a c => ?_⟩
        by_cases hj : j = s1.ne
        · rw [hj]; exact b3
        · exact hlow' j a (by omega)

theorem relink_renum {b : Bool} {ρ : Nat → Nat} {s s' : Tets β} (nemax : Nat) (h : Renum b ρ s s') :
    Renum b ρ s (relinkElt b nemax s') := by
  have hel : ∀ j, j ≤ s'.ne → (relinkElt b nemax s').el j = s'.el j := by
    intro j hj
    unfold relinkElt
    dsimp only
    rw [if_neg]
    split_ifs <;> omega
  have hv : ∀ j, Val (relinkElt b nemax s') j ↔ Val s' j := by
    intro j
    constructor
    · rintro ⟨h1, h2, h3⟩
      exact ⟨h1, h2, by rw [← hel j h2]; exact h3⟩
    · rintro ⟨h1, h2, h3⟩
      exact ⟨h1, h2, by rw [hel j h2]; exact h3⟩
  refine ⟨fun a ha => (hv _).2 (h.val a ha), fun a ha => ?_, fun hb a ha i hi => h.adja hb a ha i hi, h.inj,
    fun j hj => h.surj j ((hv j).1 hj)⟩
  rw [hel _ (h.val a ha).2.1]; exact h.el a ha

/-- Packing the tetrahedra renumbers them onto `1..ne'`. -/
theorem packTets_spec (z : β) (b : Bool) (nemax : Nat) {s : Tets β} (ha : b = true → AdjOK s)
    (hl : s.ne ≠ 0 → eok (s.el s.ne) = true) :
    ∃ s' ρ, packTets z b nemax s = some s' ∧ Renum b ρ s s' ∧ s'.ne ≤ s.ne ∧
      (∀ j, 1 ≤ j → j ≤ s'.ne → Val s' j) := by
  unfold packTets
  by_cases h0 : s.ne = 0
  · rw [if_pos h0]
    exact ⟨s, id, rfl, Renum.refl b s ha, le_refl _, fun j a c => by omega⟩
  · rw [if_neg h0]
    obtain ⟨s', ρ, e1, e2, e3, e4, e5⟩ := tetLoop_spec z b (s.ne + 1) 1 s (le_refl _) (by omega) (by omega) ha (hl h0)
      (fun j a c => by omega)
    refine ⟨relinkElt b nemax s', ρ, by rw [e1]; rfl, relink_renum nemax e2, e4, fun j a c => ?_⟩
    have hj : Val s' j := ⟨a, c, e5 j a c⟩
    obtain ⟨x, hx, rfl⟩ := e2.surj j hj
    exact (relink_renum nemax e2).val x hx

/-! ### Prisms and quadrilaterals -/

def ValE (s : Els β) (a : Nat) : Prop := 1 ≤ a ∧ a ≤ s.n ∧ eok (s.el a) = true

/-- `s'` holds the valid elements of `s`, each once, renumbered by `ρ`. -/
structure RenumE (ρ : Nat → Nat) (s s' : Els β) : Prop where
  val : ∀ a, ValE s a → ValE s' (ρ a)
  el : ∀ a, ValE s a → s'.el (ρ a) = s.el a
  inj : ∀ a c, ValE s a → ValE s c → ρ a = ρ c → a = c
  surj : ∀ j, ValE s' j → ∃ a, ValE s a ∧ ρ a = j

theorem RenumE.refl (s : Els β) : RenumE id s s :=
  ⟨fun _ h => h, fun _ _ => rfl, fun _ _ _ _ h => h, fun j h => ⟨j, h, rfl⟩⟩

theorem RenumE.trans {ρ σ : Nat → Nat} {s s1 s2 : Els β} (h1 : RenumE ρ s s1) (h2 : RenumE σ s1 s2) :
    RenumE (fun a => σ (ρ a)) s s2 := by
  refine ⟨fun a h => h2.val _ (h1.val a h), fun a h => by rw [h2.el _ (h1.val a h), h1.el a h], ?_, ?_⟩
  · intro a c hva hvc h
    exact h1.inj a c hva hvc (h2.inj _ _ (h1.val a hva) (h1.val c hvc) h)
  · intro j hj
    obtain ⟨x, hx, rfl⟩ := h2.surj j hj
    obtain ⟨a, ha, rfl⟩ := h1.surj x hx
    exact ⟨a, ha, rfl⟩

theorem els_step {k : Nat} {s : Els β} (h1 : 1 ≤ k) (h2 : k ≤ s.n) (hk : eok (s.el k) = false) :
    RenumE (fun a => if a = s.n then k else a) s ⟨s.n - 1, upd s.el k (s.el s.n)⟩ := by
  have notk : ∀ a, ValE s a → a ≠ k := by
    rintro a hv rfl
    rw [hv.2.2] at hk; simp at hk
  refine ⟨?_, ?_, ?_, ?_⟩
  · intro a hv
    have := notk a hv
    have h3 := hv.2.1
    by_cases h : a = s.n
    · simp only [h, if_true]
      refine ⟨h1, ?_, ?_⟩
      · dsimp only; omega
      · dsimp only; rw [upd_same, ← h]; exact hv.2.2
    · simp only [h, if_false]
      refine ⟨hv.1, ?_, ?_⟩
      · dsimp only; omega
      · dsimp only; rw [upd_ne _ _ (notk a hv)]; exact hv.2.2
  · intro a hv
    by_cases h : a = s.n
    · simp only [h, if_true]; exact upd_same _ _ _
    · simp only [h, if_false]; exact upd_ne _ _ (notk a hv)
  · intro a c hva hvc h
    have := notk a hva
    have := notk c hvc
    split_ifs at h <;> omega
  · intro j hj
    have hj1 : 1 ≤ j := hj.1
    have hj2 : j ≤ s.n - 1 := hj.2.1
    have hj3 : eok (upd s.el k (s.el s.n) j) = true := hj.2.2
    by_cases hjk : j = k
    · refine ⟨s.n, ⟨by omega, le_refl _, ?_⟩, by rw [if_pos rfl, hjk]⟩
      rw [hjk, upd_same] at hj3; exact hj3
    · refine ⟨j, ⟨hj1, by omega, ?_⟩, if_neg (by omega)⟩
      rw [upd_ne _ _ hjk] at hj3; exact hj3

theorem elsLoop_spec : ∀ (f k : Nat) (s : Els β), 1 ≤ k → k ≤ s.n → ∃ ρ, RenumE ρ s (elsLoop f k s) := by
  intro f
  induction f with
  | zero => intro k s _ _; exact ⟨id, RenumE.refl s⟩
  | succ f ih =>
    intro k s h1 h2
    simp only [elsLoop]
    by_cases hk : eok (s.el k) = true
    · simp only [hk, if_true]
      split_ifs with h3
      · exact ih (k + 1) s (by omega) (by omega)
      · exact ⟨id, RenumE.refl s⟩
    · have hk' : eok (s.el k) = false := by simpa using hk
      simp only [hk', Bool.false_eq_true, if_false]
      have hs := els_step h1 h2 hk'
      split_ifs with h3
      · obtain ⟨ρ, hρ⟩ := ih (k + 1) ⟨s.n - 1, upd s.el k (s.el s.n)⟩ (by omega) (by dsimp only; omega)
        exact ⟨_, hs.trans hρ⟩
      · exact ⟨_, hs⟩

theorem packEls_spec (s : Els β) : ∃ ρ, RenumE ρ s (packEls s) := by
  unfold packEls
  split_ifs with h
  · exact ⟨id, RenumE.refl s⟩
  · exact elsLoop_spec _ 1 s (le_refl _) (by omega)

end Mmg.Pack3
