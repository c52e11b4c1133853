/-
  The references of the triangles survive their transfer to the tetrahedra and the reconstruction of the triangles.
-/
import Verif.BdrySetModel
import Verif.BdryProps

namespace Mmg.Bdry

/-! ### Reading the data of the tetrahedra -/

def bdOf (g : Nat → Option XT) (q : Nat × Nat) : Bool := match g q.1 with | none => false | some x => x.bdy q.2
def refOf (g : Nat → Option XT) (q : Nat × Nat) : Int := match g q.1 with | none => 0 | some x => x.ref q.2
def oriOf (g : Nat → Option XT) (q : Nat × Nat) : Bool := match g q.1 with | none => false | some x => x.ori q.2

theorem flag_iff {M : Mesh} {q : Nat × Nat} : Flag M q ↔ bdOf M.xt q = true ∧ oriOf M.xt q = true := by
  unfold Flag bdOf oriOf
  cases M.xt q.1 <;> simp

/-! ### First loop -/

theorem pair_iff (k i : Nat) (q : Nat × Nat) : (k, i) = q ↔ k = q.1 ∧ i = q.2 := by
  obtain ⟨a, b⟩ := q
  exact Prod.mk.injEq .. ▸ Iff.rfl

theorem setRef_step (M : Mesh) (O : Opt) (T : Tab) (s : Sx) (q p : Nat × Nat) :
    (bdOf (setRef M O T s q).xt p = if p = q ∧ setCond M O T q = true then true else bdOf s.xt p) ∧
    (refOf (setRef M O T s q).xt p = if p = q ∧ setCond M O T q = true then (triAt M.tri (T (fkey (M.tface q)))).ref else refOf s.xt p) ∧
    (oriOf (setRef M O T s q).xt p = oriOf s.xt p) ∧
    ((setRef M O T s q).ftag p.1 p.2 = if p = q ∧ setCond M O T q = true then
      (s.ftag p.1 p.2 ||| mgBDY) ||| (triAt M.tri (T (fkey (M.tface q)))).common else s.ftag p.1 p.2) := by
  obtain ⟨k, i⟩ := p
  simp only [pair_iff]
  by_cases hc : setCond M O T q = true
  · simp only [setRef, if_pos hc, hc, and_true]
    by_cases hk : k = q.1
    · subst hk
      simp only [bdOf, refOf, oriOf, if_true, true_and]
      cases hx : s.xt q.1 with
      | none => simp [blank]
      | some x => simp
    · simp [bdOf, refOf, oriOf, hk]
  · simp [setRef, hc]

theorem setRef_fold (M : Mesh) (O : Opt) (T : Tab) : ∀ (l : List (Nat × Nat)) (s : Sx) (p : Nat × Nat), l.Nodup →
    (bdOf (l.foldl (setRef M O T) s).xt p = true ↔ (p ∈ l ∧ setCond M O T p = true) ∨ bdOf s.xt p = true) ∧
    ((p ∈ l ∧ setCond M O T p = true) → refOf (l.foldl (setRef M O T) s).xt p = (triAt M.tri (T (fkey (M.tface p)))).ref) ∧
    (oriOf (l.foldl (setRef M O T) s).xt p = oriOf s.xt p) ∧
    ((p ∈ l ∧ setCond M O T p = true) → (l.foldl (setRef M O T) s).ftag p.1 p.2 =
      (s.ftag p.1 p.2 ||| mgBDY) ||| (triAt M.tri (T (fkey (M.tface p)))).common) ∧
    (¬ (p ∈ l ∧ setCond M O T p = true) → refOf (l.foldl (setRef M O T) s).xt p = refOf s.xt p ∧
      (l.foldl (setRef M O T) s).ftag p.1 p.2 = s.ftag p.1 p.2) := by
  intro l
  induction l with
  | nil => intro s p _; simp
  | cons q l ih =>
    intro s p hnd
    rw [List.nodup_cons] at hnd
    obtain ⟨h1, h2, h3, h4, h5⟩ := ih (setRef M O T s q) p hnd.2
    obtain ⟨s1, s2, s3, s4⟩ := setRef_step M O T s q p
    rw [List.foldl_cons, h1, h3, s1, s3]
    by_cases hp : p = q
    · subst hp
      have hn : ¬ (p ∈ l ∧ setCond M O T p = true) := fun h => hnd.1 h.1
      obtain ⟨h6, h7⟩ := h5 hn
      rw [h6, h7, s2, s4]
      by_cases hc : setCond M O T p = true
      · simp [hc]
      · simp [hc]
    · have hm : (p ∈ q :: l ∧ setCond M O T p = true) ↔ (p ∈ l ∧ setCond M O T p = true) := by
        rw [List.mem_cons]; simp [hp]
      simp only [hp, false_and, if_false] at s2 s4 ⊢
      rw [hm]
      refine ⟨Iff.rfl, h2, trivial, ?_, ?_⟩
      · intro h; rw [h4 h, s4]
      · intro h; obtain ⟨a, b⟩ := h5 h; rw [a, b, s2, s4]; exact ⟨rfl, rfl⟩

theorem setRef_some (M : Mesh) (O : Opt) (T : Tab) : ∀ (l : List (Nat × Nat)) (s : Sx) (k : Nat),
    ((l.foldl (setRef M O T) s).xt k ≠ none ↔ (∃ q ∈ l, q.1 = k ∧ setCond M O T q = true) ∨ s.xt k ≠ none) := by
  intro l
  induction l with
  | nil => intro s k; simp
  | cons q l ih =>
    intro s k
    rw [List.foldl_cons, ih]
    simp only [List.mem_cons, exists_eq_or_imp]
    have : (setRef M O T s q).xt k ≠ none ↔ (q.1 = k ∧ setCond M O T q = true) ∨ s.xt k ≠ none := by
      by_cases hc : setCond M O T q = true
      · simp only [setRef, if_pos hc, hc, and_true]
        by_cases hk : k = q.1
        · simp [hk]
        · simp [hk, Ne.symm hk]
      · simp [setRef, hc]
    rw [this]
    exact or_left_comm.trans or_assoc.symm

/-! ### Second loop -/

theorem setOri_read (g : Nat → Option XT) (q p : Nat × Nat) (b : Bool) :
    bdOf (setOri g q b) p = bdOf g p ∧ refOf (setOri g q b) p = refOf g p ∧
      oriOf (setOri g q b) p = (if p = q ∧ g q.1 ≠ none then b else oriOf g p) ∧ (setOri g q b p.1 ≠ none ↔ g p.1 ≠ none) := by
  obtain ⟨k, i⟩ := p
  simp only [pair_iff]
  by_cases hk : k = q.1
  · subst hk
    simp only [bdOf, refOf, oriOf, setOri, if_true]
    cases hx : g q.1 with
    | none => simp
    | some x => simp
  · simp [bdOf, refOf, oriOf, setOri, hk]

theorem classic_step (M : Mesh) (T : Tab) (g : Nat → Option XT) (q p : Nat × Nat) :
    bdOf (oriClassic M T g q) p = bdOf g p ∧ refOf (oriClassic M T g q) p = refOf g p ∧
    oriOf (oriClassic M T g q) p = (if p = q ∧ bdOf g q = true ∧
        ¬ (M.tadj q.1 q.2 / 4 ≠ 0 ∧ M.tref q.1 = M.tref (M.tadj q.1 q.2 / 4)) then
      decide (((triAt M.tri (T (fkey (M.tface q)))).a, (triAt M.tri (T (fkey (M.tface q)))).b,
        (triAt M.tri (T (fkey (M.tface q)))).c) = M.tface q) else oriOf g p) ∧
    (oriClassic M T g q p.1 ≠ none ↔ g p.1 ≠ none) := by
  unfold oriClassic
  cases hx : g q.1 with
  | none =>
    have : bdOf g q = false := by simp [bdOf, hx]
    simp [this]
  | some x =>
    have hb : bdOf g q = x.bdy q.2 := by simp [bdOf, hx]
    simp only [hb]
    by_cases h1 : x.bdy q.2 = true
    · rw [if_pos h1]
      by_cases h2 : M.tadj q.1 q.2 / 4 ≠ 0 ∧ M.tref q.1 = M.tref (M.tadj q.1 q.2 / 4)
      · rw [if_pos h2]; simp [h2]
      · rw [if_neg h2]
        obtain ⟨a, b, c, d⟩ := setOri_read g q p (decide (((triAt M.tri (T (fkey (M.tface q)))).a, (triAt M.tri (T (fkey (M.tface q)))).b,
          (triAt M.tri (T (fkey (M.tface q)))).c) = M.tface q))
        refine ⟨a, b, ?_, d⟩
        rw [c, hx]
        simp only [h1, h2, not_false_eq_true, and_true, ne_eq, reduceCtorEq]
    · rw [if_neg h1]; simp [h1]

theorem classic_fold (M : Mesh) (T : Tab) : ∀ (l : List (Nat × Nat)) (g : Nat → Option XT) (p : Nat × Nat),
    bdOf (l.foldl (oriClassic M T) g) p = bdOf g p ∧ refOf (l.foldl (oriClassic M T) g) p = refOf g p ∧
    (oriOf (l.foldl (oriClassic M T) g) p = if p ∈ l ∧ bdOf g p = true ∧
        ¬ (M.tadj p.1 p.2 / 4 ≠ 0 ∧ M.tref p.1 = M.tref (M.tadj p.1 p.2 / 4)) then
      decide (((triAt M.tri (T (fkey (M.tface p)))).a, (triAt M.tri (T (fkey (M.tface p)))).b,
        (triAt M.tri (T (fkey (M.tface p)))).c) = M.tface p) else oriOf g p) ∧
    (l.foldl (oriClassic M T) g p.1 ≠ none ↔ g p.1 ≠ none) := by
  intro l
  induction l with
  | nil => intro g p; simp
  | cons q l ih =>
    intro g p
    obtain ⟨h1, h2, h3, h4⟩ := ih (oriClassic M T g q) p
    obtain ⟨s1, s2, s3, s4⟩ := classic_step M T g q p
    rw [List.foldl_cons, h1, h2, h3, s1, s2, s3]
    refine ⟨rfl, rfl, ?_, h4.trans s4⟩
    by_cases hpq : p = q
    · subst hpq
      by_cases hc : bdOf g p = true ∧ ¬ (M.tadj p.1 p.2 / 4 ≠ 0 ∧ M.tref p.1 = M.tref (M.tadj p.1 p.2 / 4))
      · rw [if_pos (c := p ∈ p :: l ∧ _) ⟨List.mem_cons_self .., hc⟩, if_pos (c := p = p ∧ _) ⟨rfl, hc⟩]
        split_ifs <;> rfl
      · rw [if_neg (c := p ∈ p :: l ∧ _) fun h => hc h.2, if_neg (c := p ∈ l ∧ _) fun h => hc h.2,
          if_neg (c := p = p ∧ _) fun h => hc h.2]
    · rw [if_neg (c := p = q ∧ _) fun h => hpq h.1]
      have : p ∈ q :: l ↔ p ∈ l := by rw [List.mem_cons]; simp [hpq]
      simp only [this]

/-- Two triangles that are the same up to the vertex they begin with, with the data of the edges. -/
def Turn (t u : Tri) : Prop :=
  u = t ∨
  u = ⟨t.b, t.c, t.a, t.ref, (t.tag.2.1, t.tag.2.2, t.tag.1), (t.edg.2.1, t.edg.2.2, t.edg.1)⟩ ∨
  u = ⟨t.c, t.a, t.b, t.ref, (t.tag.2.2, t.tag.1, t.tag.2.1), (t.edg.2.2, t.edg.1, t.edg.2.1)⟩

theorem rot3 (t : Tri) : t.rot.rot.rot = t := rfl
theorem turn_refl (t : Tri) : Turn t t := .inl rfl
theorem turn_symm {t u : Tri} (h : Turn t u) : Turn u t := by
  rcases h with rfl | rfl | rfl
  · exact .inl rfl
  · exact .inr (.inr rfl)
  · exact .inr (.inl rfl)
theorem turn_trans {t u v : Tri} (h : Turn t u) (h' : Turn u v) : Turn t v := by
  rcases h with rfl | rfl | rfl <;> rcases h' with rfl | rfl | rfl
  · exact .inl rfl
  · exact .inr (.inl rfl)
  · exact .inr (.inr rfl)
  · exact .inr (.inl rfl)
  · exact .inr (.inr rfl)
  · exact .inl rfl
  · exact .inr (.inr rfl)
  · exact .inl rfl
  · exact .inr (.inl rfl)

/-- The triangle has the vertices of the face and its orientation. -/
def Along (t : Tri) (f : Nat × Nat × Nat) : Prop := ∃ u, Turn t u ∧ (u.a, u.b, u.c) = f

theorem along_turn {t u : Tri} (h : Turn t u) (f : Nat × Nat × Nat) : Along u f ↔ Along t f :=
  ⟨fun ⟨v, h1, h2⟩ => ⟨v, turn_trans h h1, h2⟩, fun ⟨v, h1, h2⟩ => ⟨v, turn_trans (turn_symm h) h1, h2⟩⟩

theorem fit_some {t u : Tri} {f : Nat × Nat × Nat} (h : t.fit f = some u) : Turn t u ∧ (u.a, u.b, u.c) = f := by
  unfold Tri.fit at h
  split_ifs at h with h1 h2 h3
  · cases h; exact ⟨.inl rfl, h1⟩
  · cases h; exact ⟨.inr (.inl rfl), h2⟩
  · cases h; exact ⟨.inr (.inr rfl), h3⟩

theorem fit_none {t : Tri} {f : Nat × Nat × Nat} (h : t.fit f = none) : ¬ Along t f := by
  unfold Tri.fit at h
  split_ifs at h with h1 h2 h3
  rintro ⟨u, rfl | rfl | rfl, hu⟩
  · exact h1 hu
  · exact h2 hu
  · exact h3 hu

theorem turn_kr {t u : Tri} (h : Turn t u) : u.key = t.key ∧ u.ref = t.ref := by
  have hr : ∀ t : Tri, t.rot.key = t.key := by
    intro t
    show (t.b ::ₘ t.c ::ₘ {t.a} : Multiset Nat) = t.a ::ₘ t.b ::ₘ {t.c}
    rw [Multiset.cons_swap t.a t.b, ← Multiset.insert_eq_cons t.c, ← Multiset.insert_eq_cons t.a, Multiset.pair_comm]
  rcases h with rfl | rfl | rfl
  · exact ⟨rfl, rfl⟩
  · exact ⟨hr t, rfl⟩
  · exact ⟨(hr _).trans (hr t), rfl⟩

/-- Lists of triangles that are the same up to rotations. -/
def Turned (l l' : List Tri) : Prop := List.Forall₂ Turn l l'

theorem turned_refl (l : List Tri) : Turned l l := by
  induction l with
  | nil => exact .nil
  | cons t l ih => exact .cons (turn_refl t) ih

theorem turned_trans {a b : List Tri} (h : Turned a b) : ∀ {c}, Turned b c → Turned a c := by
  induction h with
  | nil => intro c h; exact h
  | cons h1 _ ih => intro c h; cases h with | cons h2 h3 => exact .cons (turn_trans h1 h2) (ih h3)

theorem turned_at {l l' : List Tri} (h : Turned l l') : ∀ kt, Turn (triAt l kt) (triAt l' kt) := by
  intro kt
  unfold triAt
  generalize kt - 1 = n
  induction h generalizing n with
  | nil => exact turn_refl _
  | cons h1 _ ih =>
    cases n with
    | zero => exact h1
    | succ n => exact ih n

theorem turned_set {l : List Tri} {kt : Nat} {u : Tri} : Turn (triAt l kt) u → Turned l (l.set (kt - 1) u) := by
  unfold triAt
  generalize kt - 1 = n
  intro h
  induction l generalizing n with
  | nil => exact .nil
  | cons t l ih =>
    cases n with
    | zero => exact .cons h (turned_refl l)
    | succ n => exact .cons (turn_refl t) (ih n h)

open Classical in
theorem open_fold (M : Mesh) (T : Tab) : ∀ (l : List (Nat × Nat)) (s : (Nat → Option XT) × List Tri) (p : Nat × Nat),
    Turned s.2 (l.foldl (oriOpen M T) s).2 ∧
    bdOf (l.foldl (oriOpen M T) s).1 p = bdOf s.1 p ∧ refOf (l.foldl (oriOpen M T) s).1 p = refOf s.1 p ∧
    ((l.foldl (oriOpen M T) s).1 p.1 ≠ none ↔ s.1 p.1 ≠ none) ∧
    (oriOf (l.foldl (oriOpen M T) s).1 p = if p ∈ l ∧ s.1 p.1 ≠ none ∧ T (fkey (M.tface p)) ≠ 0 then
      decide (M.tadj p.1 p.2 / 4 = 0 ∨ Along (triAt s.2 (T (fkey (M.tface p)))) (M.tface p)) else oriOf s.1 p) := by
  intro l
  induction l with
  | nil => intro s p; simp [turned_refl]
  | cons q l ih =>
    intro s p
    have step : Turned s.2 (oriOpen M T s q).2 ∧ bdOf (oriOpen M T s q).1 p = bdOf s.1 p ∧
        refOf (oriOpen M T s q).1 p = refOf s.1 p ∧ ((oriOpen M T s q).1 p.1 ≠ none ↔ s.1 p.1 ≠ none) ∧
        (oriOf (oriOpen M T s q).1 p = if p = q ∧ s.1 q.1 ≠ none ∧ T (fkey (M.tface q)) ≠ 0 then
          decide (M.tadj q.1 q.2 / 4 = 0 ∨ Along (triAt s.2 (T (fkey (M.tface q)))) (M.tface q)) else oriOf s.1 p) := by
      unfold oriOpen
      cases hx : s.1 q.1 with
      | none => simp [turned_refl]
      | some x =>
        simp only
        by_cases h1 : T (fkey (M.tface q)) = 0
        · simp [h1, turned_refl]
        · rw [if_neg h1]
          by_cases h2 : M.tadj q.1 q.2 / 4 = 0
          · rw [if_neg (by simpa using h2)]
            obtain ⟨a, b, c, d⟩ := setOri_read s.1 q p true
            refine ⟨turned_refl _, a, b, d, ?_⟩
            rw [c, hx]
            simp only [h1, h2, ne_eq, not_false_eq_true, and_true, reduceCtorEq, true_or, decide_true]
          · rw [if_pos h2]
            cases hf : (triAt s.2 (T (fkey (M.tface q)))).fit (M.tface q) with
            | some u =>
              obtain ⟨f1, f2⟩ := fit_some hf
              obtain ⟨a, b, c, d⟩ := setOri_read s.1 q p true
              refine ⟨turned_set f1, a, b, d, ?_⟩
              have f3 : Along (triAt s.2 (T (fkey (M.tface q)))) (M.tface q) := ⟨u, f1, f2⟩
              show oriOf (setOri s.1 q true) p = _
              rw [c, hx]
              simp only [h1, f3, ne_eq, not_false_eq_true, and_true, reduceCtorEq, or_true, decide_true]
            | none =>
              obtain ⟨a, b, c, d⟩ := setOri_read s.1 q p false
              refine ⟨turned_refl _, a, b, d, ?_⟩
              have f3 := fit_none hf
              show oriOf (setOri s.1 q false) p = _
              rw [c, hx]
              simp only [h1, h2, f3, ne_eq, not_false_eq_true, and_true, reduceCtorEq, or_self, decide_false]
    obtain ⟨h1, h2, h3, h4, h5⟩ := ih (oriOpen M T s q) p
    obtain ⟨s1, s2, s3, s4, s5⟩ := step
    rw [List.foldl_cons]
    refine ⟨turned_trans s1 h1, h2.trans s2, h3.trans s3, h4.trans s4, ?_⟩
    rw [h5]
    have ha := along_turn (turned_at s1 (T (fkey (M.tface p)))) (M.tface p)
    simp only [ha, propext s4]
    by_cases hpq : p = q
    · subst hpq
      by_cases hc : s.1 p.1 ≠ none ∧ T (fkey (M.tface p)) ≠ 0
      · rw [if_pos (c := p ∈ p :: l ∧ _) ⟨List.mem_cons_self .., hc⟩]
        by_cases hp : p ∈ l
        · rw [if_pos ⟨hp, hc⟩]
        · rw [if_neg fun h => hp h.1, s5, if_pos ⟨rfl, hc⟩]
      · rw [if_neg (c := p ∈ p :: l ∧ _) fun h => hc h.2, if_neg fun h => hc h.2, s5, if_neg fun h => hc h.2]
    · rw [s5, if_neg (c := p = q ∧ _) fun h => hpq h.1]
      have : p ∈ q :: l ↔ p ∈ l := by rw [List.mem_cons]; simp [hpq]
      simp only [this]

/-! ### The data of a face -/

/-- A face of the boundary of the domain or between two references. -/
def Edge (M : Mesh) (q : Nat × Nat) : Prop := M.tadj q.1 q.2 = 0 ∨ M.tref q.1 ≠ M.tref (M.tadj q.1 q.2 / 4)

/-- The face `q` carries the data of the triangle `t`; `side` says when it has its orientation. -/
structure Carried (S : Mesh × (Nat → Nat → Nat)) (q : Nat × Nat) (t : Tri) (side : Prop) : Prop where
  data : ∃ x, S.1.xt q.1 = some x ∧ x.bdy q.2 = true ∧ x.ref q.2 = t.ref ∧ (x.ori q.2 = true ↔ side)
  /-- boundary bit (4), and the bits common to the three edges except ridge (1) and non-manifold (3) -/
  tags : ∀ b, (S.2 q.1 q.2).testBit b = true ↔ b = 4 ∨
    (t.tag.1.testBit b = true ∧ t.tag.2.1.testBit b = true ∧ t.tag.2.2.testBit b = true ∧ b ≠ 1 ∧ b ≠ 3)

theorem read_some {g : Nat → Option XT} {q : Nat × Nat} (h : bdOf g q = true) :
    ∃ x, g q.1 = some x ∧ x.bdy q.2 = true ∧ x.ref q.2 = refOf g q ∧ x.ori q.2 = oriOf g q := by
  unfold bdOf at h
  cases hx : g q.1 with
  | none => rw [hx] at h; exact absurd h (by simp)
  | some x => rw [hx] at h; exact ⟨x, rfl, h, by simp [refOf, hx], by simp [oriOf, hx]⟩

theorem tag_bits (t : Tri) (b : Nat) : (((0 ||| mgBDY) ||| t.common).testBit b = true) ↔ b = 4 ∨
    (t.tag.1.testBit b = true ∧ t.tag.2.1.testBit b = true ∧ t.tag.2.2.testBit b = true ∧ b ≠ 1 ∧ b ≠ 3) := by
  have h1 : ∀ n, Nat.testBit (2 ^ n) b = decide (n = b) := fun n => Nat.testBit_two_pow ..
  have e1 : mgBDY = 2 ^ 4 := rfl
  have e2 : mgGEO = 2 ^ 1 := rfl
  have e3 : mgNOM = 2 ^ 3 := rfl
  simp only [Tri.common, Nat.testBit_or, Nat.zero_testBit, Bool.false_or, Nat.testBit_ldiff, Nat.testBit_and, e1, e2, e3, h1,
    Bool.or_eq_true, Bool.and_eq_true, Bool.not_eq_true', decide_eq_true_eq, decide_eq_false_iff_not, ne_eq, and_assoc,
    eq_comm (a := b)]

theorem triAt_tab {l : List Tri} (hnd : (l.map Tri.key).Nodup) {t : Tri} (ht : t ∈ l) : triAt l (tab l t.key) = t := by
  have hm : t.key ∈ l.map Tri.key := List.mem_map_of_mem ht
  have hlt := List.idxOf_lt_length_iff.2 hm
  have hlt' : (l.map Tri.key).idxOf t.key < l.length := by rw [← List.length_map (f := Tri.key)]; exact hlt
  have e := List.getElem_idxOf hlt
  rw [List.getElem_map] at e
  rw [tab_eq, if_pos hm, triAt, Nat.add_sub_cancel, List.getD_eq_getElem _ _ hlt']
  exact List.inj_on_of_nodup_map hnd (List.getElem_mem _) ht e

theorem adj4 {M : Mesh} (hw : Wf M) {q : Nat × Nat} (hq : q ∈ M.tfaces) : M.tadj q.1 q.2 / 4 = 0 ↔ M.tadj q.1 q.2 = 0 := by
  rcases hw.tadj q hq with h | ⟨q', hq', _, h, _⟩
  · simp [h]
  · have := (mem_tfaces.1 hq').1.1
    omega

theorem none_of_bd {g : Nat → Option XT} {q : Nat × Nat} (h : ¬ bdOf g q = true) : ¬ ∃ x, g q.1 = some x ∧ x.bdy q.2 = true := by
  rintro ⟨x, hx, hb⟩
  exact h (by simp [bdOf, hx, hb])

/-- **C79** : each face between two references or on the boundary of the domain gets the reference and the tags of its triangle, in the
tetrahedra of both sides; it has its orientation if the vertices are in the same order.  The other faces get nothing. -/
theorem C79_classic {M : Mesh} {O : Opt} (hw : Wf M) (hO : O.opnbdy = false) (hnd : (M.tri.map Tri.key).Nodup) (hne : M.tri ≠ []) :
    (∀ q ∈ M.tfaces, Edge M q → ∀ t ∈ M.tri, t.key = fkey (M.tface q) →
      Carried (bdrySet M O) q t ((t.a, t.b, t.c) = M.tface q)) ∧
    (∀ q ∈ M.tfaces, ¬ Edge M q → ¬ ∃ x, (bdrySet M O).1.xt q.1 = some x ∧ x.bdy q.2 = true) ∧
    (bdrySet M O).1.tri = M.tri := by
  have hc : ∀ q ∈ M.tfaces, setCond M O (tab M.tri) q = true ↔ Edge M q := by
    intro q hq
    simp only [setCond, hO, Bool.false_eq_true, if_false, Bool.or_eq_true, decide_eq_true_eq, adj4 hw hq, Edge]
  have e : bdrySet M O = ({ M with
      xt := M.tfaces.foldl (oriClassic M (tab M.tri))
        (M.tfaces.foldl (setRef M O (tab M.tri)) ⟨fun _ => none, fun _ _ => 0⟩).xt
      hasXt := true },
      (M.tfaces.foldl (setRef M O (tab M.tri)) ⟨fun _ => none, fun _ _ => 0⟩).ftag) := by
    unfold bdrySet
    rw [if_neg hne]
    simp only [hO, Bool.false_eq_true, if_false]
    rfl
  rw [e]
  refine ⟨?_, ?_, rfl⟩
  · intro q hq hE t ht hk
    obtain ⟨f1, f2, f3, f4, -⟩ := setRef_fold M O (tab M.tri) M.tfaces ⟨fun _ => none, fun _ _ => 0⟩ q (tfaces_nodup M)
    have hq' : q ∈ M.tfaces ∧ setCond M O (tab M.tri) q = true := ⟨hq, (hc q hq).2 hE⟩
    obtain ⟨g1, g2, g3, -⟩ := classic_fold M (tab M.tri) M.tfaces
      (M.tfaces.foldl (setRef M O (tab M.tri)) ⟨fun _ => none, fun _ _ => 0⟩).xt q
    have hb := f1.2 (.inl hq')
    obtain ⟨x, hx, x1, x2, x3⟩ := read_some (g1.trans hb)
    have htri : triAt M.tri (tab M.tri (fkey (M.tface q))) = t := by rw [← hk]; exact triAt_tab hnd ht
    refine ⟨⟨x, hx, x1, ?_, ?_⟩, ?_⟩
    · rw [x2, g2, f2 hq', htri]
    · have h3 : ¬ (M.tadj q.1 q.2 / 4 ≠ 0 ∧ M.tref q.1 = M.tref (M.tadj q.1 q.2 / 4)) := by
        rintro ⟨a, b⟩
        rcases hE with h | h
        · exact a ((adj4 hw hq).2 h)
        · exact h b
      rw [x3, g3, if_pos ⟨hq, hb, h3⟩, htri, decide_eq_true_eq]
    · intro b
      show (Nat.testBit ((M.tfaces.foldl (setRef M O (tab M.tri)) ⟨fun _ => none, fun _ _ => 0⟩).ftag q.1 q.2) b) = true ↔ _
      rw [f4 hq', htri]
      exact tag_bits t b
  · intro q hq hE
    obtain ⟨f1, -⟩ := setRef_fold M O (tab M.tri) M.tfaces ⟨fun _ => none, fun _ _ => 0⟩ q (tfaces_nodup M)
    obtain ⟨g1, -⟩ := classic_fold M (tab M.tri) M.tfaces
      (M.tfaces.foldl (setRef M O (tab M.tri)) ⟨fun _ => none, fun _ _ => 0⟩).xt q
    refine none_of_bd ?_
    rw [g1, f1]
    rintro (h | h)
    · exact hE ((hc q hq).1 h.2)
    · exact absurd h (by simp [bdOf])

/-- **C79** (internal triangles kept) : each face that is a triangle gets its reference and its tags; it has its orientation if the
vertices are in the same order up to a rotation.  The triangles change only by rotations that keep the data of the
edges with them. -/
theorem C79_open {M : Mesh} {O : Opt} (hw : Wf M) (hO : O.opnbdy = true) (hnd : (M.tri.map Tri.key).Nodup) (hne : M.tri ≠ []) :
    (∀ q ∈ M.tfaces, ∀ t ∈ M.tri, t.key = fkey (M.tface q) →
      Carried (bdrySet M O) q t (M.tadj q.1 q.2 = 0 ∨ Along t (M.tface q))) ∧
    (∀ q ∈ M.tfaces, fkey (M.tface q) ∉ M.tri.map Tri.key → ¬ ∃ x, (bdrySet M O).1.xt q.1 = some x ∧ x.bdy q.2 = true) ∧
    Turned M.tri (bdrySet M O).1.tri := by
  classical
  have hc : ∀ q ∈ M.tfaces, setCond M O (tab M.tri) q = true ↔ fkey (M.tface q) ∈ M.tri.map Tri.key := by
    intro q hq
    simp only [setCond, hO, if_true, decide_eq_true_eq, ne_eq, tab_zero, not_not]
  have e : bdrySet M O = ({ M with
      xt := (M.tfaces.foldl (oriOpen M (tab M.tri))
        ((M.tfaces.foldl (setRef M O (tab M.tri)) ⟨fun _ => none, fun _ _ => 0⟩).xt, M.tri)).1
      tri := (M.tfaces.foldl (oriOpen M (tab M.tri))
        ((M.tfaces.foldl (setRef M O (tab M.tri)) ⟨fun _ => none, fun _ _ => 0⟩).xt, M.tri)).2
      hasXt := true },
      (M.tfaces.foldl (setRef M O (tab M.tri)) ⟨fun _ => none, fun _ _ => 0⟩).ftag) := by
    unfold bdrySet
    rw [if_neg hne]
    simp only [hO, if_true]
    rfl
  rw [e]
  refine ⟨?_, ?_, ?_⟩
  · intro q hq t ht hk
    have hE : fkey (M.tface q) ∈ M.tri.map Tri.key := by rw [← hk]; exact List.mem_map_of_mem ht
    obtain ⟨f1, f2, f3, f4, -⟩ := setRef_fold M O (tab M.tri) M.tfaces ⟨fun _ => none, fun _ _ => 0⟩ q (tfaces_nodup M)
    have hq' : q ∈ M.tfaces ∧ setCond M O (tab M.tri) q = true := ⟨hq, (hc q hq).2 hE⟩
    obtain ⟨-, g1, g2, -, g3⟩ := open_fold M (tab M.tri) M.tfaces
      ((M.tfaces.foldl (setRef M O (tab M.tri)) ⟨fun _ => none, fun _ _ => 0⟩).xt, M.tri) q
    have hb := f1.2 (.inl hq')
    obtain ⟨x, hx, x1, x2, x3⟩ := read_some (g1.trans hb)
    have htri : triAt M.tri (tab M.tri (fkey (M.tface q))) = t := by rw [← hk]; exact triAt_tab hnd ht
    refine ⟨⟨x, hx, x1, ?_, ?_⟩, ?_⟩
    · rw [x2, g2, f2 hq', htri]
    · have h3 : tab M.tri (fkey (M.tface q)) ≠ 0 := by rw [ne_eq, tab_zero, not_not]; exact hE
      have h4 : (M.tfaces.foldl (setRef M O (tab M.tri)) ⟨fun _ => none, fun _ _ => 0⟩).xt q.1 ≠ none := by
        obtain ⟨y, hy, -⟩ := read_some hb
        rw [hy]; simp
      rw [x3, g3, if_pos ⟨hq, h4, h3⟩, htri, decide_eq_true_eq, adj4 hw hq]
    · intro b
      show (Nat.testBit ((M.tfaces.foldl (setRef M O (tab M.tri)) ⟨fun _ => none, fun _ _ => 0⟩).ftag q.1 q.2) b) = true ↔ _
      rw [f4 hq', htri]
      exact tag_bits t b
  · intro q hq hE
    obtain ⟨f1, -⟩ := setRef_fold M O (tab M.tri) M.tfaces ⟨fun _ => none, fun _ _ => 0⟩ q (tfaces_nodup M)
    obtain ⟨-, g1, -⟩ := open_fold M (tab M.tri) M.tfaces
      ((M.tfaces.foldl (setRef M O (tab M.tri)) ⟨fun _ => none, fun _ _ => 0⟩).xt, M.tri) q
    refine none_of_bd ?_
    rw [g1, f1]
    rintro (h | h)
    · exact hE ((hc q hq).1 h.2)
    · exact absurd h (by simp [bdOf])
  · exact (open_fold M (tab M.tri) M.tfaces
      ((M.tfaces.foldl (setRef M O (tab M.tri)) ⟨fun _ => none, fun _ _ => 0⟩).xt, M.tri) (0, 0)).1

/-! ### The triangles that are made again -/

/-- Face and reference of a triangle. -/
def Tri.kr (t : Tri) : Multiset Nat × Int := (t.key, t.ref)

theorem wf_change {M M' : Mesh} (hw : Wf M) (h1 : M'.tfaces = M.tfaces) (h2 : M'.pfaces = M.pfaces) (h3 : M'.tface = M.tface)
    (h4 : M'.pface = M.pface) (h5 : M'.tadj = M.tadj) (h6 : M'.padj = M.padj) : Wf M' := by
  refine ⟨?_, ?_, ?_, ?_, ?_⟩
  · rw [h1, h3, h5]; exact hw.tadj
  · rw [h1, h3, h5]; exact hw.tall
  · rw [h2, h4, h6]; exact hw.padj
  · rw [h2, h4, h6]; exact hw.pall
  · rw [h1, h2, h3, h4, h5, h6]; exact hw.mixed

/-- The fields that `MMG5_bdrySet` does not change. -/
theorem set_same (M : Mesh) (O : Opt) : ∃ x l b, (bdrySet M O).1 = { M with xt := x, tri := l, hasXt := b } := by
  unfold bdrySet
  split_ifs
  · exact ⟨_, _, _, rfl⟩
  · exact ⟨_, _, _, rfl⟩
  · exact ⟨_, _, _, rfl⟩

theorem newref_of {M : Mesh} {O : Opt} {q : Nat × Nat} {x : XT} (hx : M.xt q.1 = some x) (hb : x.bdy q.2 = true) :
    tnewref M O q = x.ref q.2 := by
  unfold tnewref
  simp only [hx, hb, if_true]
  split_ifs <;> rfl

/-- From the result of the reconstruction to the same faces and references. -/
theorem perm_of {M S : Mesh} {O : Opt} {want : Multiset Nat → Prop} (hp : S.np = 0) (ht : S.tri = [])
    (hnd : (M.tri.map Tri.key).Nodup) (hw : ∀ f, want f ↔ f ∈ M.tri.map Tri.key)
    (href : ∀ q ∈ S.tfaces, tadd S O q = true → ∀ t ∈ M.tri, t.key = fkey (S.tface q) → tnewref S O q = t.ref)
    {out : List Tri} (h : Found S O want out) : (out.map Tri.kr).Perm (M.tri.map Tri.kr) := by
  have nd : ∀ l : List Tri, (l.map Tri.key).Nodup → (l.map Tri.kr).Nodup := by
    intro l hl
    refine List.Nodup.of_map Prod.fst ?_
    rw [List.map_map]
    exact hl
  obtain ⟨n1, n2, K, N, h1, h2, -, h4⟩ := h
  have hK : K = [] := List.sublist_nil.1 (ht ▸ h2)
  subst hK
  have hs : ∀ u u', Same S u u' → u' = u := by
    intro u u' h
    refine h.2 ?_
    rintro ⟨-, q, hq, -⟩
    rw [pfaces_nil hp] at hq
    exact List.not_mem_nil hq
  have e : N = out := by
    have : List.Forall₂ (· = ·) N out := h1.imp fun u u' h => (hs u u' h).symm
    exact List.forall₂_eq_eq_eq ▸ this
  subst e
  have main : ∀ u ∈ N, ∀ t ∈ M.tri, u.key = t.key → u.kr = t.kr := by
    intro u hu t ht' hk
    rcases (h4 u hu).2 with ⟨q, hq, h5, rfl⟩ | ⟨q, hq, -⟩
    · rw [tnew_key] at hk
      refine Prod.ext ?_ (href q hq h5 t ht' hk.symm)
      rw [← tnew_key S O q] at hk
      exact hk
    · rw [pfaces_nil hp] at hq
      exact absurd hq List.not_mem_nil
  refine (List.perm_ext_iff_of_nodup (nd _ n1) (nd _ hnd)).2 ?_
  intro a
  constructor
  · intro ha
    obtain ⟨u, hu, rfl⟩ := List.mem_map.1 ha
    obtain ⟨t, ht', hk⟩ := List.mem_map.1 ((hw _).1 ((n2 _).1 (List.mem_map_of_mem hu)))
    rw [main u hu t ht' hk.symm]
    exact List.mem_map_of_mem ht'
  · intro ha
    obtain ⟨t, ht', rfl⟩ := List.mem_map.1 ha
    obtain ⟨u, hu, hk⟩ := List.mem_map.1 ((n2 _).2 ((hw _).2 (List.mem_map_of_mem ht')))
    rw [← main u hu t ht' hk]
    exact List.mem_map_of_mem hu

/-- **C79** : in a mesh whose triangles are its boundary faces, the triangles made again from the data of the tetrahedra have the same
faces and the same references. -/
theorem C79_refs {M : Mesh} {O : Opt} (hw : Wf M) (hO : O.opnbdy = false) (hp : M.np = 0) (hnd : (M.tri.map Tri.key).Nodup)
    (hbd : ∀ f, f ∈ M.tri.map Tri.key ↔ Bd M f) (hne : M.tri ≠ []) :
    ((rebuild (bdrySet M O).1 O).tri.map Tri.kr).Perm (M.tri.map Tri.kr) := by
  obtain ⟨c1, -, -⟩ := C79_classic hw hO hnd hne
  obtain ⟨x, l, b, e⟩ := set_same M O
  have hS : Wf { (bdrySet M O).1 with tri := [] } := by
    rw [e]; exact wf_change hw rfl rfl rfl rfl rfl rfl
  have hF := C78_triangles hS hO
  have hB : ∀ f, Bd { (bdrySet M O).1 with tri := [] } f ↔ f ∈ M.tri.map Tri.key := by
    intro f; rw [hbd, e]; exact Iff.rfl
  refine perm_of (M := M) (by rw [e]; exact hp) rfl hnd hB ?_ hF
  intro q hq hadd t ht hk
  rw [tadd_eq hS (.inl hO) hq] at hadd
  have hq' : q ∈ M.tfaces := by rw [e] at hq; exact hq
  have hE : Edge M q := by
    rw [e] at hadd
    simp only [tcount, Bool.or_eq_true, decide_eq_true_eq] at hadd
    rcases hadd with h | h
    · exact .inl h
    · exact .inr (ne_of_gt h)
  have hk' : t.key = fkey (M.tface q) := by rw [hk, e]; rfl
  obtain ⟨⟨y, hy, y1, y2, -⟩, -⟩ := c1 q hq' hE t ht hk'
  rw [newref_of (M := { (bdrySet M O).1 with tri := [] }) hy y1, y2]

/-- **C79** (internal triangles kept) : the triangles between two references have the orientation of the tetrahedron of greater
reference, neighbours see their face with opposite orientations.  Then the triangles made again have the same faces and
references. -/
theorem C79_refs_open {M : Mesh} {O : Opt} (hw : Wf M) (hO : O.opnbdy = true) (hp : M.np = 0) (hnd : (M.tri.map Tri.key).Nodup)
    (hbd : ∀ f, Bd M f → f ∈ M.tri.map Tri.key) (hin : ∀ t ∈ M.tri, ∃ q ∈ M.tfaces, fkey (M.tface q) = t.key) (hne : M.tri ≠ [])
    (hdir : ∀ q ∈ M.tfaces, M.tadj q.1 q.2 ≠ 0 → M.tref (M.tadj q.1 q.2 / 4) < M.tref q.1 → ∀ t ∈ M.tri,
      t.key = fkey (M.tface q) → Along t (M.tface q))
    (hopp : ∀ q ∈ M.tfaces, ∀ q' ∈ M.tfaces, q ≠ q' → ∀ t ∈ M.tri, t.key = fkey (M.tface q) → t.key = fkey (M.tface q') →
      (Along t (M.tface q) ↔ ¬ Along t (M.tface q'))) :
    ((rebuild (bdrySet M O).1 O).tri.map Tri.kr).Perm (M.tri.map Tri.kr) := by
  obtain ⟨c1, c2, -⟩ := C79_open hw hO hnd hne
  obtain ⟨x, l, b, e⟩ := set_same M O
  have hx : (bdrySet M O).1.hasXt = true := by
    unfold bdrySet
    rw [if_neg hne]
    simp only [hO, if_true]
  have hS : Wf { (bdrySet M O).1 with tri := [] } := by
    rw [e]; exact wf_change hw rfl rfl rfl rfl rfl rfl
  have f1 : { (bdrySet M O).1 with tri := [] }.tfaces = M.tfaces := by rw [e]; rfl
  have f2 : { (bdrySet M O).1 with tri := [] }.tface = M.tface := by rw [e]; rfl
  have f3 : { (bdrySet M O).1 with tri := [] }.tadj = M.tadj := by rw [e]
  have f4 : { (bdrySet M O).1 with tri := [] }.tref = M.tref := by rw [e]
  -- the faces that are flagged
  have hflag : ∀ q ∈ M.tfaces, ∀ t ∈ M.tri, t.key = fkey (M.tface q) →
      (Flag { (bdrySet M O).1 with tri := [] } q ↔ M.tadj q.1 q.2 = 0 ∨ Along t (M.tface q)) := by
    intro q hq t ht hk
    obtain ⟨⟨y, hy, y1, -, y3⟩, -⟩ := c1 q hq t ht hk
    rw [← y3]
    constructor
    · rintro ⟨z, hz, -, z2⟩
      rw [show (bdrySet M O).1.xt q.1 = some z from hz] at hy
      cases hy
      exact z2
    · intro h; exact ⟨y, hy, y1, h⟩
  have hflag' : ∀ q ∈ M.tfaces, Flag { (bdrySet M O).1 with tri := [] } q → fkey (M.tface q) ∈ M.tri.map Tri.key := by
    rintro q hq ⟨y, hy, y1, -⟩
    by_contra h
    exact c2 q hq h ⟨y, hy, y1⟩
  have hF := C78_last (M := { (bdrySet M O).1 with tri := [] }) hS hO hx rfl
    (by
      rw [f1, f3, f4]
      intro q hq h1 h2
      have : fkey (M.tface q) ∈ M.tri.map Tri.key := hbd _ (.inl ⟨q, hq, rfl, .inr (ne_of_gt h2)⟩)
      obtain ⟨t, ht, hk⟩ := List.mem_map.1 this
      exact (hflag q hq t ht hk).2 (.inr (hdir q hq h1 h2 t ht hk)))
    (by
      rw [f1, f2, f4]
      intro q hq q' hq' hne' he _ h1 h2
      obtain ⟨t, ht, hk⟩ := List.mem_map.1 (hflag' q hq h1)
      have t1 := hw.tall q hq q' hq' hne' he
      have t2 := hw.tall q' hq' q hq (Ne.symm hne') he.symm
      have b1 := (mem_tfaces.1 hq).1.1
      have b2 := (mem_tfaces.1 hq').1.1
      have a1 := ((hflag q hq t ht hk).1 h1).resolve_left (by omega)
      have a2 := ((hflag q' hq' t ht (hk.trans he)).1 h2).resolve_left (by omega)
      exact (hopp q hq q' hq' hne' t ht hk (hk.trans he)).1 a1 a2)
  have hB : ∀ f, (Bd { (bdrySet M O).1 with tri := [] } f ∨ Inside { (bdrySet M O).1 with tri := [] } f) ↔ f ∈ M.tri.map Tri.key := by
    intro f
    have eB : Bd { (bdrySet M O).1 with tri := [] } f ↔ Bd M f := by rw [e]; exact Iff.rfl
    rw [eB]
    constructor
    · rintro (h | ⟨q, hq, hk, -, -, h⟩)
      · exact hbd f h
      · rw [f1] at hq
        rw [f2] at hk
        rw [← hk]
        exact hflag' q hq h
    · intro hf
      obtain ⟨t, ht, rfl⟩ := List.mem_map.1 hf
      obtain ⟨q, hq, hk⟩ := hin t ht
      by_cases hE : Edge M q
      · exact .inl (.inl ⟨q, hq, hk, hE⟩)
      · right
        unfold Edge at hE
        rw [not_or, not_not] at hE
        unfold Inside
        rw [f1, f2, f3, f4]
        rcases hw.tadj q hq with h | ⟨q', hq', hne', h, hk'⟩
        · exact absurd h hE.1
        · have c4 := code4 (q := q') (mem_tfaces.1 hq').2.2
          have hr := hE.2
          rw [h, c4] at hr
          have back := hw.tall q' hq' q hq hne' hk'
          have c5 := code4 (q := q) (mem_tfaces.1 hq).2.2
          by_cases ha : Along t (M.tface q)
          · exact ⟨q, hq, hk, hE.1, hE.2, (hflag q hq t ht hk.symm).2 (.inr ha)⟩
          · have ha' : Along t (M.tface q') := by
              by_contra hh
              exact ha ((hopp q hq q' hq' (Ne.symm hne') t ht hk.symm (hk'.trans hk).symm).2 hh)
            refine ⟨q', hq', hk'.trans hk, ?_, ?_, (hflag q' hq' t ht (hk'.trans hk).symm).2 (.inr ha')⟩
            · have := (mem_tfaces.1 hq).1.1; omega
            · rw [back, c5]; exact hr.symm
  refine perm_of (M := M) (by rw [e]; exact hp) rfl hnd hB ?_ hF
  intro q hq _ t ht hk
  rw [f1] at hq
  rw [f2] at hk
  obtain ⟨⟨y, hy, y1, y2, -⟩, -⟩ := c1 q hq t ht hk
  rw [newref_of (M := { (bdrySet M O).1 with tri := [] }) hy y1, y2]

end Mmg.Bdry
