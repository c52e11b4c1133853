/-
  C95, helper lemmas: swap and split keep the required entities.
-/
import Verif.Req2Model
import Verif.Tri2ColProps

set_option linter.unusedSimpArgs false

namespace Mmg.Req2

open Mmg.Tri2

variable {K : Type}

theorem req_or (a b : Nat) : req (a ||| b) = (req a || req b) := Nat.testBit_or ..

theorem req_zero : req 0 = false := by decide

theorem Keeps.refl (S : St K) : Keeps S S :=
  ⟨fun p hp => ⟨rfl, hp, fun k i hk e => ⟨k, i, hk, e⟩⟩, fun h hk e => ⟨h, hk, e, rfl, rfl⟩, fun k hk e => ⟨hk, rfl, rfl, e⟩⟩

theorem Keeps.trans {S S' S'' : St K} (a : Keeps S S') (b : Keeps S' S'') : Keeps S S'' := by
  refine ⟨fun p hp => ?_, fun h hk e => ?_, fun k hk e => ?_⟩
  · obtain ⟨a1, a2, a3⟩ := a.vertex p hp
    obtain ⟨b1, b2, b3⟩ := b.vertex p a2
    refine ⟨b1.trans a1, b2, fun k i hk e => ?_⟩
    obtain ⟨k', i', hk', e'⟩ := a3 k i hk e
    exact b3 k' i' hk' e'
  · obtain ⟨h', l', r', o', d'⟩ := a.edge h hk e
    obtain ⟨h2, l2, r2, o2, d2⟩ := b.edge h' l' r'
    exact ⟨h2, l2, r2, o2.trans o', d2.trans d'⟩
  · obtain ⟨l', v', f', t'⟩ := a.tria k hk e
    obtain ⟨l2, v2, f2, t2⟩ := b.tria k l' t'
    exact ⟨l2, v2.trans v', f2.trans f', t2⟩

/-- Symmetric form of `Ready.sym`. -/
theorem Ready.iff {S : St K} (R : Ready S) {h h' : HE} (hk : S.M.live h.1) (e : S.M.adj h = some h') :
    req ((S.M.tri h.1).tag h.2) = true ↔ req ((S.M.tri h'.1).tag h'.2) = true := by
  obtain ⟨a, b, -, -⟩ := R.valid.link h h' hk e
  exact ⟨R.sym h h' hk e, R.sym h' h a b⟩

theorem Ready.swp {S : St K} (R : Ready S) {k : Nat} {i : Fin 3} {chk : Bool} (hk : S.M.live k)
    (hc : chk = true → ∀ o, S.M.adj (k, i) = some o → (S.M.tri k).v i ≠ (S.M.tri o.1).v o.2) :
    Ready (swpBody S k i chk) ∧ Keeps S (swpBody S k i chk) := by
  unfold swpBody
  split
  · exact ⟨R, .refl S⟩
  rename_i hs
  split
  · exact ⟨R, .refl S⟩
  rename_i hchk
  split
  case h_2 => exact ⟨R, .refl S⟩
  rename_i M' hM
  obtain ⟨M, pos, tag⟩ := S
  simp only at *
  have h := R.valid
  simp only at h
  cases ho : M.adj (k, i) with
  | none =>
    unfold swapar at hM
    rw [ho] at hM
    split at hM <;> simp at hM
  | some o =>
    obtain ⟨a, j⟩ := o
    have hne := hc (by simpa using hchk) (a, j) ho
    obtain ⟨ha, h3, ea, eb, ec⟩ := h.lnk hk _ _ _ ho
    have hreq : req ((M.tri k).tag i) = false := by
      simp only [sin, Bool.or_eq_true, not_or, Bool.not_eq_true] at hs
      exact hs.1.2
    have hreq' : req ((M.tri a).tag j) = false := by
      have := R.iff (h := (k, i)) (h' := (a, j)) hk ho
      simp only [hreq, Bool.false_eq_true, false_iff, Bool.not_eq_true] at this
      exact this
    rcases C14_swap (fun t => edg t || sin t) h hk ho hne with ⟨-, q⟩ | ⟨-, M2, q, hV, g1, g2, g3, g4, g5, g6, g7, g8, hL, hO, -, -⟩
    · rw [hM] at q; cases q
    rw [hM] at q
    cases q
    have htri := swapar_tri ho h3 hM
    have hadj := swapar_adj h hk ho hne hM
    obtain ⟨a1, a2, a3, a4, a5, a6, a7, a8⟩ := f3 i
    obtain ⟨b1, b2, b3, b4, b5, b6, b7, b8⟩ := f3 j
    simp only [Mesh.edge, Prod.mk.injEq] at g1 g2 g3 g4 g5 g6
    -- the edge that corresponds to a required edge, backwards and forwards
    have back : ∀ x : HE, M'.live x.1 → req ((M'.tri x.1).tag x.2) = true → ∃ y : HE, M.live y.1 ∧ req ((M.tri y.1).tag y.2) = true ∧
        M'.org x = M.org y ∧ M'.dst x = M.dst y := by
      rintro ⟨x, y⟩ hx e
      rw [hL] at hx
      by_cases hxk : x = k
      · subst hxk
        rcases a8 y with rfl | rfl | rfl
        · exact ⟨(a, j + 1), ha, by rw [← g3.2.2.1]; exact e, g3.1, g3.2.1⟩
        · simp only [g1, req_zero] at e; cases e
        · exact ⟨(x, i + 2), hk, by rw [← g4.2.2.1]; exact e, g4.1, g4.2.1⟩
      · by_cases hxa : x = a
        · subst hxa
          rcases b8 y with rfl | rfl | rfl
          · exact ⟨(k, i + 1), hk, by rw [← g5.2.2.1]; exact e, g5.1, g5.2.1⟩
          · simp only [g2, req_zero] at e; cases e
          · exact ⟨(x, j + 2), ha, by rw [← g6.2.2.1]; exact e, g6.1, g6.2.1⟩
        · have := hO x hxk hxa
          refine ⟨(x, y), hx, by rw [← this]; exact e, ?_, ?_⟩ <;> simp only [Mesh.org, Mesh.dst, this]
    have forth : ∀ x : HE, M.live x.1 → req ((M.tri x.1).tag x.2) = true → ∃ y : HE, M'.live y.1 ∧ req ((M'.tri y.1).tag y.2) = true ∧
        M'.org y = M.org x ∧ M'.dst y = M.dst x := by
      rintro ⟨x, y⟩ hx e
      by_cases hxk : x = k
      · subst hxk
        rcases a8 y with rfl | rfl | rfl
        · simp only [hreq] at e; cases e
        · exact ⟨(a, j), (hL a).2 ha, by rw [g5.2.2.1]; exact e, g5.1, g5.2.1⟩
        · exact ⟨(x, i + 2), (hL x).2 hk, by rw [g4.2.2.1]; exact e, g4.1, g4.2.1⟩
      · by_cases hxa : x = a
        · subst hxa
          rcases b8 y with rfl | rfl | rfl
          · simp only [hreq'] at e; cases e
          · exact ⟨(k, i), (hL k).2 hk, by rw [g3.2.2.1]; exact e, g3.1, g3.2.1⟩
          · exact ⟨(x, j + 2), (hL x).2 ha, by rw [g6.2.2.1]; exact e, g6.1, g6.2.1⟩
        · have := hO x hxk hxa
          refine ⟨(x, y), (hL x).2 hx, by rw [this]; exact e, ?_, ?_⟩ <;> simp only [Mesh.org, Mesh.dst, this]
    refine ⟨⟨hV, ?_, ?_⟩, ⟨fun p hp => ⟨rfl, hp, ?_⟩, forth, ?_⟩⟩
    · rintro ⟨x, y⟩ ⟨x', y'⟩ hx e r
      have hx2 := (hL x).1 hx
      have iff := fun (u u' : HE) (hu : M.live u.1) (e : M.adj u = some u') => R.iff (h := u) (h' := u') hu e
      have hbk := fun (u u' : HE) (hu : M.live u.1) (e : M.adj u = some u') => (h.link u u' hu e).2.1
      have tr : ∀ u w, (M'.tri u).tag w = if u = k then (if w = i + 1 then 0 else if w = i then (M.tri a).tag (j + 1) else (M.tri k).tag w)
          else if u = a then (if w = j + 1 then 0 else if w = j then (M.tri k).tag (i + 1) else (M.tri a).tag w) else (M.tri u).tag w := by
        intro u w
        rw [htri]
        split
        · rfl
        · split <;> rfl
      simp only at r ⊢
      rw [hadj] at e
      rw [tr] at r ⊢
      have nk := fun w x y (q : M.adj (k, w) = some (x, y)) => (h.lnk hk w x y q).2
      have na := fun w x y (q : M.adj (a, w) = some (x, y)) => (h.lnk ha w x y q).2
      have nx := fun x' y' (q : M.adj (x, y) = some (x', y')) => (h.lnk hx2 y x' y' q).2
      have k0 := hbk (k, i) (a, j) hk ho
      have z := req_zero
      have i1 := fun w q => iff (k, w) q hk
      have i2 := fun w q => iff (a, w) q ha
      have i3 := fun q => iff (x, y) q hx2
      have dk := h.distinct k hk
      have da := h.distinct a ha
      by_cases hxk : x = k
      · subst hxk
        rcases a8 y with rfl | rfl | rfl
        · simp only [if_true, if_neg a1.symm] at e r
          have := i2 (j + 1) (x', y') e
          have q := na _ _ _ e
          simp only [b4, b5] at q
          grind
        · simp only [if_true, z] at r; cases r
        · simp only [if_true, if_neg a2, if_neg a3.symm] at e r
          have := i1 (i + 2) (x', y') e
          have q := nk _ _ _ e
          simp only [a6, a7] at q
          grind
      · by_cases hxa : x = a
        · subst hxa
          rcases b8 y with rfl | rfl | rfl
          · simp only [if_true, if_neg b1.symm, if_neg hxk] at e r
            have := i1 (i + 1) (x', y') e
            have q := nk _ _ _ e
            simp only [a4, a5] at q
            grind
          · simp only [if_true, z, if_neg hxk] at r; cases r
          · simp only [if_true, if_neg b2, if_neg b3.symm, if_neg hxk] at e r
            have := i2 (j + 2) (x', y') e
            have q := na _ _ _ e
            simp only [b6, b7] at q
            grind
        · simp only [if_neg hxk, if_neg hxa] at e r
          split at e
          · rename_i e1
            cases e
            have := i2 (j + 1) (x, y) e1
            grind
          · split at e
            · rename_i e1 e2
              cases e
              have := i1 (i + 1) (x, y) e2
              grind
            · rename_i e1 e2
              have := i3 (x', y') e
              have q := nx _ _ e
              grind
    · intro x hx r
      obtain ⟨y, hy, r', e1, e2⟩ := back x hx r
      rw [e1, e2]
      exact R.ends y hy r'
    · intro x y hx e
      by_cases hxk : x = k
      · subst hxk
        rcases a8 y with rfl | rfl | rfl
        · exact ⟨x, y, (hL x).2 hk, by rw [htri, if_pos rfl]; simp only [if_neg a2.symm]; exact e⟩
        · exact ⟨x, i + 1, (hL x).2 hk, by rw [htri, if_pos rfl]; simp only [if_neg a3]; exact e⟩
        · refine ⟨a, j + 1, (hL a).2 ha, ?_⟩
          rw [htri, if_neg h3, if_pos rfl]
          simp only [if_neg b3]
          rw [← e]; exact eb
      · by_cases hxa : x = a
        · subst hxa
          rcases b8 y with rfl | rfl | rfl
          · exact ⟨x, y, (hL x).2 ha, by rw [htri, if_neg hxk, if_pos rfl]; simp only [if_neg b2.symm]; exact e⟩
          · exact ⟨x, j + 1, (hL x).2 ha, by rw [htri, if_neg hxk, if_pos rfl]; simp only [if_neg b3]; exact e⟩
          · refine ⟨k, i + 1, (hL k).2 hk, ?_⟩
            rw [htri, if_pos rfl]
            simp only [if_neg a3]
            rw [← e]; exact ec.symm
        · exact ⟨x, y, (hL x).2 hx, by rw [hO x hxk hxa]; exact e⟩
    · intro x hx hr
      have hxk : x ≠ k := by rintro rfl; rw [hr i] at hreq; cases hreq
      have hxa : x ≠ a := by rintro rfl; rw [hr j] at hreq'; cases hreq'
      have := hO x hxk hxa
      exact ⟨(hL x).2 hx, by simp only [this], by simp only [this], by simp only [this]; exact hr⟩

theorem Ready.spl {S : St K} (R : Ready S) {k : Nat} {i : Fin 3} {ip iel kel : Nat} {o : K} (hk : S.M.live k) (hp : Free S ip)
    (h10 : iel ≠ 0) (h20 : kel ≠ 0) (h6 : iel ≠ kel) (n1 : ¬ S.M.live iel) (n2 : ¬ S.M.live kel) :
    Ready (splBody S k i ip iel kel o) ∧ Keeps S (splBody S k i ip iel kel o) := by
  unfold splBody
  split
  · exact ⟨R, .refl S⟩
  rename_i hs
  obtain ⟨M, pos, tag⟩ := S
  have h := R.valid
  obtain ⟨hip, hq, hfr⟩ := hp
  simp only at *
  have hreq : req ((M.tri k).tag i) = false := by
    simp only [sin, Bool.or_eq_true, not_or, Bool.not_eq_true] at hs
    exact hs.2
  obtain ⟨a1, a2, a3, a4, a5, a6, a7, a8⟩ := f3 i
  have hki : k ≠ iel := fun e => n1 (e ▸ hk)
  have hkk : k ≠ kel := fun e => n2 (e ▸ hk)
  -- common end
  have fin : ∀ M' : Mesh, Valid M' →
      (∀ x : HE, M'.live x.1 → ∀ x', M'.adj x = some x' → req ((M'.tri x.1).tag x.2) = true → req ((M'.tri x'.1).tag x'.2) = true) →
      (∀ x : HE, M'.live x.1 → req ((M'.tri x.1).tag x.2) = true → ∃ y : HE, M.live y.1 ∧ req ((M.tri y.1).tag y.2) = true ∧
        M'.org x = M.org y ∧ M'.dst x = M.dst y) →
      (∀ x : HE, M.live x.1 → req ((M.tri x.1).tag x.2) = true → ∃ y : HE, M'.live y.1 ∧ req ((M'.tri y.1).tag y.2) = true ∧
        M'.org y = M.org x ∧ M'.dst y = M.dst x) →
      (∀ x y, M.live x → ∃ x' y', M'.live x' ∧ (M'.tri x').v y' = (M.tri x).v y) →
      (∀ x, M.live x → (∀ y, req ((M.tri x).tag y) = true) → M'.live x ∧ M'.tri x = M.tri x) →
      Ready (⟨M', fun x => if x = ip then o else pos x, fun x => if x = ip then (M.tri k).tag i else tag x⟩ : St K) ∧
      Keeps ⟨M, pos, tag⟩ (⟨M', fun x => if x = ip then o else pos x, fun x => if x = ip then (M.tri k).tag i else tag x⟩ : St K) := by
    intro M' hV hS back forth hu ht
    have keep : ∀ p, req (tag p) = true → p ≠ ip := by
      rintro p hp rfl
      rw [hq] at hp; cases hp
    refine ⟨⟨hV, fun x x' hx e r => hS x hx x' e r, ?_⟩, ⟨?_, forth, ?_⟩⟩
    · intro x hx r
      obtain ⟨y, hy, r', e1, e2⟩ := back x hx r
      have := R.ends y hy r'
      simp only at this ⊢
      rw [e1, e2, if_neg (keep _ this.1), if_neg (keep _ this.2)]
      exact this
    · intro p hp
      refine ⟨if_neg (keep _ hp), ?_, fun x y hx e => ?_⟩
      · simp only
        rw [if_neg (keep _ hp)]
        exact hp
      · obtain ⟨x', y', h1, h2⟩ := hu x y hx
        exact ⟨x', y', h1, h2.trans e⟩
    · intro x hx hr
      obtain ⟨l, e⟩ := ht x hx hr
      exact ⟨l, by simp only [e], by simp only [e], by simp only [e]; exact hr⟩
  cases ho : M.adj (k, i) with
  | none =>
    obtain ⟨hV, S1, hL, hO, -⟩ := C13_split_boundary_edge (kel := kel) h hk ho n1 h10 hip (hfr k hk)
    have htri := split1b_tri_bdy (M := M) (ip := ip) (kel := kel) ho hki
    have hadj := split1b_adj_bdy (ip := ip) (kel := kel) h hk ho n1
    have s1 := S1.half1
    have s2 := S1.half2
    have s3 := S1.other1
    have s4 := S1.other2
    have s5 := S1.inner1
    have s6 := S1.inner2
    simp only [if_true, Mesh.edge, Prod.mk.injEq] at s1 s2 s3 s4 s5 s6
    refine fin _ hV ?_ ?_ ?_ ?_ ?_
    · rintro ⟨x, y⟩ hx ⟨x', y'⟩ e r
      have iff := fun (u u' : HE) (hu : M.live u.1) (e : M.adj u = some u') => R.iff (h := u) (h' := u') hu e
      simp only at iff r ⊢
      have z := req_zero
      have nk := fun w x y (q : M.adj (k, w) = some (x, y)) => h.lnk hk w x y q
      have i1 := fun w q => iff (k, w) q hk
      rw [hadj] at e
      rw [hL] at hx
      have tr : ∀ u w, ((split1b M k i ip iel kel).tri u).tag w = if u = k then (if w = i + 1 then 0 else (M.tri k).tag w)
          else if u = iel then (if w = i + 2 then 0 else (M.tri k).tag w) else (M.tri u).tag w := by
        intro u w
        rw [htri]
        split
        · rfl
        · split <;> rfl
      rw [tr] at r ⊢
      by_cases hxk : x = k
      · subst hxk
        rcases a8 y with rfl | rfl | rfl
        · simp only [if_true, if_neg a1.symm, ho] at e; cases e
        · simp only [if_true, z] at r; cases r
        · simp only [if_true, if_neg a3.symm] at e r
          have := i1 (i + 2) (x', y') e
          have q := nk _ _ _ e
          grind
      by_cases hxi : x = iel
      · subst hxi
        rcases a8 y with rfl | rfl | rfl
        · simp only [if_true, if_neg hxk, if_neg a2.symm, ho] at e; cases e
        · simp only [if_true, if_neg a3, if_neg hxk] at e r
          have := i1 (i + 1) (x', y') e
          have q := nk _ _ _ e
          grind
        · simp only [if_true, z, if_neg hxk] at r; cases r
      simp only [if_neg hxk, if_neg hxi] at e r
      have hx2 : M.live x := by rcases hx with hx | hx <;> [exact hx; exact absurd hx hxi]
      split at e
      · rename_i e1
        cases e
        have := i1 (i + 1) (x, y) e1
        grind
      · rename_i e1
        have := iff (x, y) (x', y') hx2 e
        have q := h.lnk hx2 _ _ _ e
        grind
    · rintro ⟨x, y⟩ hx r
      rw [hL] at hx
      by_cases hxk : x = k
      · subst hxk
        rcases a8 y with rfl | rfl | rfl
        · simp only [s1, hreq] at r; cases r
        · simp only [s5, req_zero] at r; cases r
        · exact ⟨(x, i + 2), hk, by rw [← s4.2.2.1]; exact r, s4.1, s4.2.1⟩
      · by_cases hxi : x = iel
        · subst hxi
          rcases a8 y with rfl | rfl | rfl
          · simp only [s2, hreq] at r; cases r
          · exact ⟨(k, i + 1), hk, by rw [← s3.2.2.1]; exact r, s3.1, s3.2.1⟩
          · simp only [s6, req_zero] at r; cases r
        · have := hO x hxk hxi
          refine ⟨(x, y), by rcases hx with hx | hx <;> [exact hx; exact absurd hx hxi], by rw [← this]; exact r, ?_, ?_⟩ <;>
            simp only [Mesh.org, Mesh.dst, this]
    · rintro ⟨x, y⟩ hx r
      by_cases hxk : x = k
      · subst hxk
        rcases a8 y with rfl | rfl | rfl
        · simp only [hreq] at r; cases r
        · exact ⟨(iel, i + 1), (hL _).2 (.inr rfl), by rw [s3.2.2.1]; exact r, s3.1, s3.2.1⟩
        · exact ⟨(x, i + 2), (hL _).2 (.inl hk), by rw [s4.2.2.1]; exact r, s4.1, s4.2.1⟩
      · have hxi : x ≠ iel := by rintro rfl; exact n1 hx
        have := hO x hxk hxi
        refine ⟨(x, y), (hL _).2 (.inl hx), by rw [this]; exact r, ?_, ?_⟩ <;> simp only [Mesh.org, Mesh.dst, this]
    · intro x y hx
      by_cases hxk : x = k
      · subst hxk
        by_cases hy : y = i + 2
        · refine ⟨iel, y, (hL _).2 (.inr rfl), ?_⟩
          rw [htri, if_neg hki.symm, if_pos rfl]
          simp only [Tri.cut, hy, if_neg a3.symm]
        · refine ⟨x, y, (hL _).2 (.inl hk), ?_⟩
          rw [htri, if_pos rfl]
          simp only [Tri.cut, if_neg hy]
      · have hxi : x ≠ iel := by rintro rfl; exact n1 hx
        exact ⟨x, y, (hL _).2 (.inl hx), by rw [hO x hxk hxi]⟩
    · intro x hx hr
      have hxk : x ≠ k := by rintro rfl; rw [hr i] at hreq; cases hreq
      have hxi : x ≠ iel := by rintro rfl; exact n1 hx
      exact ⟨(hL _).2 (.inl hx), hO x hxk hxi⟩
  | some q =>
    obtain ⟨a, j⟩ := q
    obtain ⟨ha, h3, ea, eb, ec⟩ := h.lnk hk _ _ _ ho
    have hreq' : req ((M.tri a).tag j) = false := by
      have := R.iff (h := (k, i)) (h' := (a, j)) hk ho
      simp only [hreq, Bool.false_eq_true, false_iff, Bool.not_eq_true] at this
      exact this
    have hai : a ≠ iel := fun e => n1 (e ▸ ha)
    have hak : a ≠ kel := fun e => n2 (e ▸ ha)
    obtain ⟨hV, S1, S2, hL, hO, -⟩ := C13_split_interior_edge h hk ho n1 n2 h6 h10 h20 hip (hfr k hk) (hfr a ha)
    have htri := split1b_tri_int (M := M) (ip := ip) ho hki hak h3.symm hkk hai h6
    have hadj := split1b_adj_int (ip := ip) h hk ho n1 n2 h6
    obtain ⟨b1, b2, b3, b4, b5, b6, b7, b8⟩ := f3 j
    have s1 := S1.half1
    have s2 := S1.half2
    have s3 := S1.other1
    have s4 := S1.other2
    have s5 := S1.inner1
    have s6 := S1.inner2
    have u1 := S2.half1
    have u2 := S2.half2
    have u3 := S2.other1
    have u4 := S2.other2
    have u5 := S2.inner1
    have u6 := S2.inner2
    simp only [if_true, Bool.false_eq_true, if_false, Mesh.edge, Prod.mk.injEq] at s1 s2 s3 s4 s5 s6 u1 u2 u3 u4 u5 u6
    refine fin _ hV ?_ ?_ ?_ ?_ ?_
    · rintro ⟨x, y⟩ hx ⟨x', y'⟩ e r
      have iff := fun (u u' : HE) (hu : M.live u.1) (e : M.adj u = some u') => R.iff (h := u) (h' := u') hu e
      simp only at iff r ⊢
      have z := req_zero
      have nk := fun w x y (q : M.adj (k, w) = some (x, y)) => h.lnk hk w x y q
      have i1 := fun w q => iff (k, w) q hk
      rw [hadj] at e
      rw [hL] at hx
      have na := fun w x y (q : M.adj (a, w) = some (x, y)) => h.lnk ha w x y q
      have i2 := fun w q => iff (a, w) q ha
      have tr : ∀ u w, ((split1b M k i ip iel kel).tri u).tag w = if u = k then (if w = i + 1 then 0 else (M.tri k).tag w)
          else if u = iel then (if w = i + 2 then 0 else (M.tri k).tag w)
          else if u = a then (if w = j + 2 then 0 else (M.tri a).tag w)
          else if u = kel then (if w = j + 1 then 0 else (M.tri a).tag w) else (M.tri u).tag w := by
        intro u w
        rw [htri]
        split
        · rfl
        · split
          · rfl
          · split
            · rfl
            · split <;> rfl
      rw [tr] at r ⊢
      by_cases hxk : x = k
      · subst hxk
        rcases a8 y with rfl | rfl | rfl
        · simp only [if_true, if_neg a1.symm, hreq] at r; cases r
        · simp only [if_true, z] at r; cases r
        · simp only [if_true, if_neg a3.symm] at e r
          have := i1 (i + 2) (x', y') e
          have q := nk _ _ _ e
          by_cases hx' : x' = a
          · subst hx'
            rcases b8 y' with rfl | rfl | rfl
            · grind
            · grind
            · simp only [b6, b7, a6, a7] at q
              exact absurd (q.2.2.2.1.trans ec.symm) (h.distinct _ ha _ _ b2.symm)
          · grind
      by_cases hxi : x = iel
      · subst hxi
        rcases a8 y with rfl | rfl | rfl
        · simp only [if_true, if_neg a2.symm, hreq, if_neg hxk] at r; cases r
        · simp only [if_true, if_neg a3, if_neg a1, if_neg hxk] at e r
          split at e
          · rename_i e1
            cases e
            have := i1 (i + 1) _ e1
            grind
          · have := i1 (i + 1) (x', y') e
            have q := nk _ _ _ e
            grind
        · simp only [if_true, z, if_neg hxk] at r; cases r
      by_cases hxa : x = a
      · subst hxa
        rcases b8 y with rfl | rfl | rfl
        · simp only [if_true, if_neg b2.symm, hreq', if_neg hxk, if_neg hxi] at r; cases r
        · simp only [if_true, if_neg b3, if_neg hxk, if_neg hxi] at e r
          have := i2 (j + 1) (x', y') e
          have q := na _ _ _ e
          by_cases hx' : x' = k
          · subst hx'
            rcases a8 y' with rfl | rfl | rfl
            · grind
            · simp only [b4, b5, a4, a5] at q
              exact absurd (q.2.2.2.2.trans ec) (h.distinct _ hk _ _ a1.symm)
            · grind
          · grind
        · simp only [if_true, z, if_neg hxk, if_neg hxi] at r; cases r
      by_cases hxl : x = kel
      · subst hxl
        rcases b8 y with rfl | rfl | rfl
        · simp only [if_true, if_neg b1.symm, hreq', if_neg hxk, if_neg hxi, if_neg hxa] at r; cases r
        · simp only [if_true, z, if_neg hxk, if_neg hxi, if_neg hxa] at r; cases r
        · simp only [if_true, if_neg b3.symm, if_neg b2, if_neg hxk, if_neg hxi, if_neg hxa] at e r
          split at e
          · rename_i e1
            cases e
            have := i1 (i + 1) _ e1
            grind
          · have := i2 (j + 2) (x', y') e
            have q := na _ _ _ e
            grind
      simp only [if_neg hxk, if_neg hxi, if_neg hxa, if_neg hxl] at e r
      have hx2 : M.live x := by rcases hx with hx | hx | hx <;> [exact hx; exact absurd hx hxi; exact absurd hx hxl]
      split at e
      · rename_i e1
        cases e
        have := i1 (i + 1) (x, y) e1
        grind
      · split at e
        · rename_i e1 e2
          cases e
          have := i2 (j + 2) (x, y) e2
          grind
        · rename_i e1 e2
          have := iff (x, y) (x', y') hx2 e
          have q := h.lnk hx2 _ _ _ e
          grind
    · rintro ⟨x, y⟩ hx r
      rw [hL] at hx
      by_cases hxk : x = k
      · subst hxk
        rcases a8 y with rfl | rfl | rfl
        · simp only [s1, hreq] at r; cases r
        · simp only [s5, req_zero] at r; cases r
        · exact ⟨(x, i + 2), hk, by rw [← s4.2.2.1]; exact r, s4.1, s4.2.1⟩
      by_cases hxi : x = iel
      · subst hxi
        rcases a8 y with rfl | rfl | rfl
        · simp only [s2, hreq] at r; cases r
        · exact ⟨(k, i + 1), hk, by rw [← s3.2.2.1]; exact r, s3.1, s3.2.1⟩
        · simp only [s6, req_zero] at r; cases r
      by_cases hxa : x = a
      · subst hxa
        rcases b8 y with rfl | rfl | rfl
        · simp only [u2, hreq'] at r; cases r
        · exact ⟨(x, j + 1), ha, by rw [← u3.2.2.1]; exact r, u3.1, u3.2.1⟩
        · simp only [u6, req_zero] at r; cases r
      by_cases hxl : x = kel
      · subst hxl
        rcases b8 y with rfl | rfl | rfl
        · simp only [u1, hreq'] at r; cases r
        · simp only [u5, req_zero] at r; cases r
        · exact ⟨(a, j + 2), ha, by rw [← u4.2.2.1]; exact r, u4.1, u4.2.1⟩
      have := hO x hxk hxa hxi hxl
      refine ⟨(x, y), by rcases hx with hx | hx | hx <;> [exact hx; exact absurd hx hxi; exact absurd hx hxl],
        by rw [← this]; exact r, ?_, ?_⟩ <;> simp only [Mesh.org, Mesh.dst, this]
    · rintro ⟨x, y⟩ hx r
      by_cases hxk : x = k
      · subst hxk
        rcases a8 y with rfl | rfl | rfl
        · simp only [hreq] at r; cases r
        · exact ⟨(iel, i + 1), (hL _).2 (.inr (.inl rfl)), by rw [s3.2.2.1]; exact r, s3.1, s3.2.1⟩
        · exact ⟨(x, i + 2), (hL _).2 (.inl hk), by rw [s4.2.2.1]; exact r, s4.1, s4.2.1⟩
      by_cases hxa : x = a
      · subst hxa
        rcases b8 y with rfl | rfl | rfl
        · simp only [hreq'] at r; cases r
        · exact ⟨(x, j + 1), (hL _).2 (.inl ha), by rw [u3.2.2.1]; exact r, u3.1, u3.2.1⟩
        · exact ⟨(kel, j + 2), (hL _).2 (.inr (.inr rfl)), by rw [u4.2.2.1]; exact r, u4.1, u4.2.1⟩
      have hxi : x ≠ iel := by rintro rfl; exact n1 hx
      have hxl : x ≠ kel := by rintro rfl; exact n2 hx
      have := hO x hxk hxa hxi hxl
      refine ⟨(x, y), (hL _).2 (.inl hx), by rw [this]; exact r, ?_, ?_⟩ <;> simp only [Mesh.org, Mesh.dst, this]
    · intro x y hx
      by_cases hxk : x = k
      · subst hxk
        by_cases hy : y = i + 2
        · refine ⟨iel, y, (hL _).2 (.inr (.inl rfl)), ?_⟩
          rw [htri, if_neg hki.symm, if_pos rfl]
          simp only [Tri.cut, hy, if_neg a3.symm]
        · refine ⟨x, y, (hL _).2 (.inl hk), ?_⟩
          rw [htri, if_pos rfl]
          simp only [Tri.cut, if_neg hy]
      by_cases hxa : x = a
      · subst hxa
        by_cases hy : y = j + 1
        · refine ⟨kel, y, (hL _).2 (.inr (.inr rfl)), ?_⟩
          rw [htri, if_neg hkk.symm, if_neg h6.symm, if_neg hak.symm, if_pos rfl]
          simp only [Tri.cut, hy, if_neg b3]
        · refine ⟨x, y, (hL _).2 (.inl ha), ?_⟩
          rw [htri, if_neg h3, if_neg hai, if_pos rfl]
          simp only [Tri.cut, if_neg hy]
      have hxi : x ≠ iel := by rintro rfl; exact n1 hx
      have hxl : x ≠ kel := by rintro rfl; exact n2 hx
      exact ⟨x, y, (hL _).2 (.inl hx), by rw [hO x hxk hxa hxi hxl]⟩
    · intro x hx hr
      have hxk : x ≠ k := by rintro rfl; rw [hr i] at hreq; cases hreq
      have hxa : x ≠ a := by rintro rfl; rw [hr j] at hreq'; cases hreq'
      have hxi : x ≠ iel := by rintro rfl; exact n1 hx
      have hxl : x ≠ kel := by rintro rfl; exact n2 hx
      exact ⟨(hL _).2 (.inl hx), hO x hxk hxa hxi hxl⟩

end Mmg.Req2
