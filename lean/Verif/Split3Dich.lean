/-
  Simulation of a split and search of admissible positions for the new points
  (mmg3d/split_3d.c `*_sim`, mmg3d/mmg3d1.c 131-283 `MMG3D_dichoto`): C49.
-/
import Verif.Split3Mesh

namespace Mmg.Split3

/-! ### Model -/

section
variable {K : Type} [Field K] [LinearOrder K]

/-- The simulations `MMG3D_split*_sim` (mmg3d/split_3d.c 94-125, 1103-1155, 1427-1480, 1636-1700,
1921-2075, 2522-2650, 3337-3437, 3685-3820, 4111-4200, 4414-4480): the volume of the tetrahedron,
then the volumes of the simulated ones, in order, are compared with `MMG5_EPSOK` (`eps`); `none` if
`flag` selects no simulation. -/
def sim (eps : K) (flag : Nat) (c : Nat → Pt K) (vx : Nat → Nat) (v : List Nat) : Option Bool :=
  (simTets flag vx v).map fun l =>
    if volOf c v < eps then false else l.all fun w => !decide (volOf c w < eps)

/-- `o[i] = 0.5 * (pa->c + pb->c)`, mmg3d/mmg3d1.c 162-164. -/
def midPt (c : Nat → Pt K) (v : List Nat) (e : Nat) : Pt K :=
  let a := c (v.getD (iare.getD e (0, 0)).1 0)
  let b := c (v.getD (iare.getD e (0, 0)).2 0)
  ⟨1 / 2 * (a.x + b.x), 1 / 2 * (a.y + b.y), 1 / 2 * (a.z + b.z)⟩

/-- `ps->c = o[i] + t*(p[i] - o[i])` for every edge with a point, mmg3d/mmg3d1.c 178-185; `c` are the
coordinates at the entry of the function.  When a point is given for two edges the last one wins. -/
def movePts (c : Nat → Pt K) (v : List Nat) (vx : Nat → Nat) (t : K) (n : Nat) : Pt K :=
  match (List.range 6).reverse.find? (fun e => decide (0 < vx e ∧ vx e = n)) with
  | some e =>
    let o := midPt c v e
    let p := c (vx e)
    ⟨o.x + t * (p.x - o.x), o.y + t * (p.y - o.y), o.z + t * (p.z - o.z)⟩
  | none => c n

/-- The loop `do { ... } while ( ++it < maxit )`, mmg3d/mmg3d1.c 173-221: `t = 0.5*(tp+to)`, and
`to = t` if the position is accepted, `tp = t` otherwise.  The result is the last `t`, whether it
was accepted, and the last `to` (here `lo`). -/
def dichLoop (ok : K → Bool) : Nat → K → K → K → Bool → K × Bool × K
  | 0, lo, _, t, ier => (t, ier, lo)
  | n + 1, lo, tp, _, _ =>
    let t := 1 / 2 * (tp + lo)
    if ok t then dichLoop ok n t tp t true else dichLoop ok n lo t t false

/-- `MMG3D_dichoto`, mmg3d/mmg3d1.c 131-283: final coordinates and return value.  `none` when `flag`
selects no simulation (the C code would then use the uninitialised `ier`). -/
def dichoto (eps : K) (flag : Nat) (c : Nat → Pt K) (vx : Nat → Nat) (v : List Nat) :
    Option ((Nat → Pt K) × Bool) :=
  let ok := fun t => (sim eps flag (movePts c v vx t) vx v).getD false
  let r := dichLoop ok 4 0 1 0 false
  let c' := movePts c v vx (if r.2.1 then r.1 else r.2.2)
  (sim eps flag c' vx v).map fun b => (c', b)
end

/-! ### Specification -/

section
variable {K : Type} [Field K] [LinearOrder K]

/-- All the tetrahedra created by the split have at least the volume `eps`. -/
def SplitValid (eps : K) (flag : Nat) (c : Nat → Pt K) (vx : Nat → Nat) (t : CTet) : Prop :=
  ∀ junk ch, split flag junk vx t = some ch → ∀ x ∈ ch, eps ≤ volOf c x.v
end

/-! ### Lemmas -/

section
variable {K : Type} [Field K] [LinearOrder K] [IsStrictOrderedRing K]

theorem dichLoop_spec (ok : K → Bool) (n : Nat) (lo tp t : K) (ier : Bool) (h0 : 0 ≤ lo)
    (h1 : lo < tp) (h2 : tp ≤ 1) (ht : 0 ≤ t ∧ t ≤ 1)
    (hto : lo = 0 ∨ ok lo = true) (hier : ier = true → ok t = true) :
    let r := dichLoop ok n lo tp t ier
    (0 ≤ r.1 ∧ r.1 ≤ 1) ∧ (0 ≤ r.2.2 ∧ r.2.2 < 1) ∧ (r.2.2 = 0 ∨ ok r.2.2 = true) ∧
      (r.2.1 = true → ok r.1 = true) := by
  induction n generalizing lo tp t ier with
  | zero => exact ⟨ht, ⟨h0, h1.trans_le h2⟩, hto, hier⟩
  | succ n ih =>
    unfold dichLoop
    have a : lo < 1 / 2 * (tp + lo) := by linarith
    have b : 1 / 2 * (tp + lo) < tp := by linarith
    simp only
    split_ifs with hok
    · exact ih _ _ _ _ (by linarith) b h2 ⟨by linarith, by linarith⟩ (.inr hok) (fun _ => hok)
    · exact ih _ _ _ _ h0 a (by linarith) ⟨by linarith, by linarith⟩ hto (fun h => by cases h)

/-- The chosen position is accepted if any of the tried ones, or the mid points, is. -/
theorem dichLoop_choice (ok : K → Bool) :
    let r := dichLoop ok 4 0 1 0 false
    let t := if r.2.1 then r.1 else r.2.2
    (0 ≤ t ∧ t ≤ 1) ∧ (t = 0 ∨ ok t = true) := by
  obtain ⟨h1, h2, h3, h4⟩ := dichLoop_spec ok 4 0 1 0 false le_rfl zero_lt_one le_rfl
    ⟨le_rfl, zero_le_one⟩ (.inl rfl) (fun h => by cases h)
  simp only
  split_ifs with h
  · exact ⟨h1, .inr (h4 h)⟩
  · exact ⟨⟨h2.1, h2.2.le⟩, h3⟩

omit [IsStrictOrderedRing K] in
theorem sim_true {eps : K} {flag : Nat} {c : Nat → Pt K} {vx : Nat → Nat} {t : CTet} (wf : WF t)
    (h : sim eps flag c vx t.v = some true) :
    eps ≤ volOf c t.v ∧ SplitValid eps flag c vx t := by
  unfold sim at h
  cases hl : simTets flag vx t.v with
  | none => rw [hl] at h; cases h
  | some l =>
    rw [hl] at h
    simp only [Option.map_some, Option.some.injEq] at h
    split_ifs at h with h0
    refine ⟨not_lt.1 h0, ?_⟩
    intro junk ch hs x hx
    obtain ⟨⟨h1, h2⟩, rfl⟩ := split_kids wf hs
    have hk := sim_kids h1 h2 vx wf
    rw [hl, Option.some.injEq] at hk
    obtain ⟨y, hy, rfl⟩ := List.mem_map.1 hx
    rw [List.all_eq_true] at h
    have := h (y.v.map (val t vx 0)) (by rw [hk]; exact List.mem_map.2 ⟨y, hy, rfl⟩)
    simp only [Bool.not_eq_true', decide_eq_false_iff_not, not_lt] at this
    exact this

omit [IsStrictOrderedRing K] in
theorem sim_of_valid {eps : K} {flag : Nat} (h1 : 1 ≤ flag) (h2 : flag < 64) {c : Nat → Pt K}
    {vx : Nat → Nat} {t : CTet} (wf : WF t) (h0 : eps ≤ volOf c t.v)
    (hv : SplitValid eps flag c vx t) : sim eps flag c vx t.v = some true := by
  unfold sim
  rw [sim_kids h1 h2 vx wf]
  simp only [Option.map_some, if_neg (not_lt.2 h0), Option.some.injEq, List.all_eq_true]
  intro w hw
  obtain ⟨x, hx, rfl⟩ := List.mem_map.1 hw
  obtain ⟨ch, hs⟩ := split_some h1 h2 (fun _ => 0) vx t
  have := hv _ ch hs ((hom flag (fun _ => 0) vx t).tet x) (by
    rw [(split_kids wf hs).2]; exact List.mem_map_of_mem hx)
  simp only [Bool.not_eq_true', decide_eq_false_iff_not, not_lt]
  exact this

/-- Lower bound of an affine function in the middle of the edges. -/
theorem half_of_ends {F : (Nat → K) → K} (es : List Nat) (hn : es.Nodup)
    (ha : ∀ e ∈ es, AffIn F e) (s : Nat → K) (hs : ∀ e ∈ es, s e = 1 / 2) {V : K}
    (h : ∀ b ∈ subs es, ∀ s', AtEnds es b s' → (∀ e ∉ es, s' e = s e) → 0 ≤ F s')
    (hp : ∃ b ∈ subs es, ∀ s', AtEnds es b s' → (∀ e ∉ es, s' e = s e) → V ≤ F s') :
    V ≤ 2 ^ es.length * F s := by
  induction es generalizing s with
  | nil =>
    obtain ⟨b, _, hb⟩ := hp
    have := hb s (by simp [AtEnds]) (fun _ _ => rfl)
    simpa using this
  | cons e es ih =>
    have he : e ∉ es := (List.nodup_cons.1 hn).1
    have hse := hs e List.mem_cons_self
    have hup : ∀ x : K, ∀ e' ∈ es, Function.update s e x e' = s e' := fun x e' h' =>
      Function.update_of_ne (fun hh : e' = e => he (hh ▸ h')) _ _
    have ha' : ∀ e' ∈ es, AffIn F e' := fun e' h' => ha e' (List.mem_cons_of_mem _ h')
    have hends : ∀ x : K, x = 0 ∨ x = 1 → ∀ b ∈ subs es, ∀ s', AtEnds es b s' →
        (∀ e' ∉ es, s' e' = Function.update s e x e') → 0 ≤ F s' := by
      intro x hx b hb s' h1 h2
      obtain ⟨b', hb', h3, h4⟩ := ends_cons hn hb h1 h2 hx
      exact h b' hb' s' h3 h4
    have nn : ∀ x : K, x = 0 ∨ x = 1 → 0 ≤ F (Function.update s e x) := by
      intro x hx
      refine nonneg_of_ends es (List.nodup_cons.1 hn).2 ha' _ ?_ (hends x hx)
      intro e' h'
      rw [hup x e' h', hs e' (List.mem_cons_of_mem _ h')]
      constructor <;> norm_num
    have pp : ∀ x : K, x = 0 ∨ x = 1 → (∃ b ∈ subs es, ∀ s', AtEnds es b s' →
        (∀ e' ∉ es, s' e' = Function.update s e x e') → V ≤ F s') →
        V ≤ 2 ^ es.length * F (Function.update s e x) := by
      intro x hx hpx
      refine ih (List.nodup_cons.1 hn).2 ha' _ ?_ (hends x hx) hpx
      intro e' h'
      rw [hup x e' h']
      exact hs e' (List.mem_cons_of_mem _ h')
    have hsplit := (ha e List.mem_cons_self).split s
    rw [hse] at hsplit
    have hpow : (2 : K) ^ (e :: es).length * F s =
        2 ^ es.length * F (Function.update s e 0) + 2 ^ es.length * F (Function.update s e 1) := by
      rw [hsplit, List.length_cons, pow_succ]
      ring
    rw [hpow]
    have p2 : (0 : K) ≤ 2 ^ es.length := by positivity
    have n0 := mul_nonneg p2 (nn 0 (.inl rfl))
    have n1 := mul_nonneg p2 (nn 1 (.inr rfl))
    obtain ⟨b, hb, hpos⟩ := hp
    have hoff : ∀ (x : K) (s' : Nat → K), (∀ e' ∉ es, s' e' = Function.update s e x e') →
        s' e = x ∧ ∀ e' ∉ e :: es, s' e' = s e' := by
      intro x s' h2
      refine ⟨by rw [h2 e he, Function.update_self], ?_⟩
      intro e' h'
      rw [List.mem_cons, not_or] at h'
      rw [h2 e' h'.2, Function.update_of_ne h'.1]
    simp only [subs, List.mem_append, List.mem_map] at hb
    rcases hb with ⟨d, hd, rfl⟩ | hb
    · have := pp 1 (.inr rfl) ⟨d, hd, by
        intro s' h1 h2
        obtain ⟨h3, h4⟩ := hoff 1 s' h2
        refine hpos s' ?_ h4
        intro e' h'
        rcases List.mem_cons.1 h' with rfl | h'
        · rw [h3, if_pos List.mem_cons_self]
        · have : e' ≠ e := fun hh => he (hh ▸ h')
          rw [h1 e' h']
          simp [this]⟩
      linarith
    · have := pp 0 (.inl rfl) ⟨b, hb, by
        intro s' h1 h2
        obtain ⟨h3, h4⟩ := hoff 0 s' h2
        refine hpos s' ?_ h4
        intro e' h'
        rcases List.mem_cons.1 h' with rfl | h'
        · rw [h3, if_neg (fun hh => he (subs_subset hb _ hh))]
        · exact h1 e' h'⟩
      linarith

theorem kid_half {flag : Nat} (h1 : 1 ≤ flag) (h2 : flag < 64) {v : List Nat} {X : Nat → Pt K}
    {s : Nat → K} (hs : ∀ e < 6, flag.testBit e = true → s e = 1 / 2)
    (hV : 0 ≤ vol (X 0) (X 1) (X 2) (X 3)) {x : Tet Pos Sym Sym Sym}
    (hx : x ∈ kids flag (csOf flag v)) :
    vol (X 0) (X 1) (X 2) (X 3) ≤ 64 * volAt X x.v s := by
  obtain ⟨h4, hp⟩ := kid_vert h1 h2 hx
  have hn : 0 ≤ volAt X x.v s := by
    refine kid_nonneg h1 h2 (fun e he hb => ?_) hV hx
    rw [hs e he hb]
    constructor <;> norm_num
  have key : vol (X 0) (X 1) (X 2) (X 3) ≤ 2 ^ (edgesOf flag).length * volAt X x.v s := by
    refine half_of_ends (edgesOf flag) (edgesOf_nodup flag) ?_ s
      (fun e he => hs e (mem_edgesOf.1 he).1 (mem_edgesOf.1 he).2) ?_ ?_
    · exact fun e he => volAt_aff X h4 (kid_occ h1 h2 hx (mem_edgesOf.1 he).1)
    · intro b hb s' hs' _
      rw [volAt_ends X hs' h4 (onSplit_ends hp)]
      have hr := forRuns_spec runs_nonneg h1 h2 (cmpOf fun i => v.getD i 0)
      simp only [List.all_eq_true, decide_eq_true_eq] at hr
      have := hr b hb x hx
      exact mul_nonneg (by exact_mod_cast this) hV
    · have hr := forRuns_spec runs_pos h1 h2 (cmpOf fun i => v.getD i 0)
      simp only [List.all_eq_true, List.any_eq_true, decide_eq_true_eq] at hr
      obtain ⟨b, hb, hpos⟩ := hr x hx
      refine ⟨b, hb, fun s' hs' _ => ?_⟩
      rw [volAt_ends X hs' h4 (onSplit_ends hp)]
      have h1 : (1 : K) ≤ (sgnOf b x.v : K) := by exact_mod_cast hpos
      exact le_mul_of_one_le_left hV h1
  have hlen : (edgesOf flag).length ≤ 6 := by
    unfold edgesOf
    exact (List.length_filter_le _ _).trans (by simp)
  have hpow : (2 : K) ^ (edgesOf flag).length ≤ 64 := by
    calc (2 : K) ^ (edgesOf flag).length ≤ 2 ^ 6 := pow_le_pow_right₀ (by norm_num) hlen
      _ = 64 := by norm_num
  exact key.trans (mul_le_mul_of_nonneg_right hpow hn)

theorem find_edge {vx : Nat → Nat} {flag : Nat} {v : List Nat} (hf : FreshPoints flag v vx)
    (hfl : ∀ e < 6, flag.testBit e = decide (0 < vx e)) {e : Nat} (he : e < 6)
    (hb : flag.testBit e = true) :
    (List.range 6).reverse.find? (fun e' => decide (0 < vx e' ∧ vx e' = vx e)) = some e := by
  have hpos : 0 < vx e := of_decide_eq_true ((hfl e he).symm.trans hb)
  cases hfind : (List.range 6).reverse.find? (fun e' => decide (0 < vx e' ∧ vx e' = vx e)) with
  | none =>
    rw [List.find?_eq_none] at hfind
    have := hfind e (by simpa using he)
    simp [hpos] at this
  | some e' =>
    have h1 := List.find?_some hfind
    have h2 := List.mem_of_find?_eq_some hfind
    simp only [List.mem_reverse, List.mem_range] at h2
    simp only [decide_eq_true_eq] at h1
    have hb' : flag.testBit e' = true := by rw [hfl e' h2]; exact decide_eq_true h1.1
    rw [hf.2 e' h2 hb' e he hb h1.2]

omit [LinearOrder K] [IsStrictOrderedRing K] in
theorem movePts_old {vx : Nat → Nat} {flag : Nat} {v : List Nat} (hf : FreshPoints flag v vx)
    (hfl : ∀ e < 6, flag.testBit e = decide (0 < vx e)) (c : Nat → Pt K) (t : K) {n : Nat}
    (hn : n ∈ v) : movePts c v vx t n = c n := by
  unfold movePts
  have : (List.range 6).reverse.find? (fun e' => decide (0 < vx e' ∧ vx e' = n)) = none := by
    rw [List.find?_eq_none]
    intro e he hd
    simp only [List.mem_reverse, List.mem_range] at he
    simp only [decide_eq_true_eq] at hd
    refine hf.1 e he ?_ (hd.2 ▸ hn)
    rw [hfl e he]
    exact decide_eq_true hd.1
  rw [this]

end

/-! ### C49: accepted positions -/

section
variable {K : Type} [Field K] [LinearOrder K] [IsStrictOrderedRing K]

omit [IsStrictOrderedRing K] in
/-- The simulation accepts exactly when the parent and all the tetrahedra that the split creates
have at least the volume `eps`. -/
theorem sim_iff {eps : K} {flag : Nat} (h1 : 1 ≤ flag) (h2 : flag < 64) {c : Nat → Pt K}
    {vx : Nat → Nat} {t : CTet} (wf : WF t) :
    sim eps flag c vx t.v = some true ↔ eps ≤ volOf c t.v ∧ SplitValid eps flag c vx t :=
  ⟨fun h => sim_true wf h, fun h => sim_of_valid h1 h2 wf h.1 h.2⟩

omit [IsStrictOrderedRing K] in
/-- When the search of positions succeeds, all the tetrahedra that the split creates at the
positions found have at least the volume `eps`. -/
theorem dichoto_valid {eps : K} {flag : Nat} {c c' : Nat → Pt K} {vx : Nat → Nat} {t : CTet}
    (wf : WF t) (h : dichoto eps flag c vx t.v = some (c', true)) :
    SplitValid eps flag c' vx t := by
  unfold dichoto at h
  simp only [Option.map_eq_some_iff, Prod.mk.injEq] at h
  obtain ⟨b, hb, rfl, rfl⟩ := h
  exact (sim_true wf hb).2

/-- The search only moves the points of the edges, all at the same fraction between the middle of
their edge and their initial position. -/
theorem dichoto_moves {eps : K} {flag : Nat} {c c' : Nat → Pt K} {vx : Nat → Nat} {t : CTet}
    {b : Bool} (hf : FreshPoints flag t.v vx)
    (hfl : ∀ e < 6, flag.testBit e = decide (0 < vx e))
    (h : dichoto eps flag c vx t.v = some (c', b)) :
    ∃ τ, 0 ≤ τ ∧ τ ≤ 1 ∧
      (∀ e < 6, flag.testBit e = true → c' (vx e) = Pt.lerp (Pt.lerp
        (c (t.v.getD (iare.getD e (0, 0)).1 0)) (c (t.v.getD (iare.getD e (0, 0)).2 0)) (1 / 2))
        (c (vx e)) τ) ∧
      ∀ n, (∀ e < 6, flag.testBit e = true → n ≠ vx e) → c' n = c n := by
  unfold dichoto at h
  simp only [Option.map_eq_some_iff, Prod.mk.injEq] at h
  obtain ⟨b', hb, hc', rfl⟩ := h
  obtain ⟨hr, _⟩ := dichLoop_choice (fun t' => (sim eps flag (movePts c t.v vx t') vx t.v).getD false)
  revert hc' hr
  generalize (if (dichLoop (fun t' => (sim eps flag (movePts c t.v vx t') vx t.v).getD false)
    4 0 1 0 false).2.1 = true then _ else _) = τ
  intro hc' hr
  subst hc'
  refine ⟨τ, hr.1, hr.2, ?_, ?_⟩
  · intro e he hbit
    unfold movePts
    rw [find_edge hf hfl he hbit]
    simp only [midPt, Pt.lerp, Pt.mk.injEq]
    refine ⟨?_, ?_, ?_⟩ <;> ring
  · intro n hn
    unfold movePts
    have : (List.range 6).reverse.find? (fun e' => decide (0 < vx e' ∧ vx e' = n)) = none := by
      rw [List.find?_eq_none]
      intro e he hd
      simp only [List.mem_reverse, List.mem_range] at he
      simp only [decide_eq_true_eq] at hd
      refine hn e he ?_ hd.2.symm
      rw [hfl e he]
      exact decide_eq_true hd.1
    rw [this]

/-- The search succeeds on every tetrahedron whose volume is at least 64 times the threshold. -/
theorem dichoto_succeeds {eps : K} (he0 : 0 ≤ eps) {flag : Nat} (h1 : 1 ≤ flag) (h2 : flag < 64)
    {c : Nat → Pt K} {vx : Nat → Nat} {t : CTet} (wf : WF t) (hf : FreshPoints flag t.v vx)
    (hfl : ∀ e < 6, flag.testBit e = decide (0 < vx e)) (hV : 64 * eps ≤ volOf c t.v) :
    ∃ c', dichoto eps flag c vx t.v = some (c', true) := by
  have hv := wf.v
  have hold : ∀ τ i, i < 4 → movePts c t.v vx τ (t.v.getD i 0) = c (t.v.getD i 0) := by
    intro τ i hi
    refine movePts_old hf hfl c τ ?_
    rw [List.getD_eq_getElem _ _ (by omega)]
    exact List.getElem_mem _
  have hvol : ∀ τ, volOf (movePts c t.v vx τ) t.v = volOf c t.v := by
    intro τ
    simp only [volOf, hold τ 0 (by decide), hold τ 1 (by decide), hold τ 2 (by decide),
      hold τ 3 (by decide)]
  have hzero : sim eps flag (movePts c t.v vx 0) vx t.v = some true := by
    have hon : PointsOnEdges flag (movePts c t.v vx 0) t.v vx (fun _ => 1 / 2) := by
      intro e he hb
      have hi : (iare.getD e (0, 0)).1 < 4 ∧ (iare.getD e (0, 0)).2 < 4 := by
        interval_cases e <;> decide
      rw [hold 0 _ hi.1, hold 0 _ hi.2]
      unfold movePts
      rw [find_edge hf hfl he hb]
      simp only [midPt, Pt.lerp, Pt.mk.injEq]
      refine ⟨?_, ?_, ?_⟩ <;> ring
    refine sim_of_valid h1 h2 wf (by rw [hvol]; linarith) ?_
    intro junk ch hs x hx
    obtain ⟨_, rfl⟩ := split_kids wf hs
    obtain ⟨y, hy, rfl⟩ := List.mem_map.1 hx
    obtain ⟨h4, hp⟩ := kid_vert h1 h2 hy
    have hk := kid_half (X := fun i => movePts c t.v vx 0 (t.v.getD i 0)) (s := fun _ => 1 / 2)
      h1 h2 (fun _ _ _ => rfl) (by
        have : volOf (movePts c t.v vx 0) t.v = volOf c t.v := hvol 0
        unfold volOf at this
        rw [this]
        have : 0 ≤ volOf c t.v := by linarith
        exact this) hy
    have e1 := volOf_kid hon h4 hp
    rw [← e1] at hk
    have e2 : vol (movePts c t.v vx 0 (t.v.getD 0 0)) (movePts c t.v vx 0 (t.v.getD 1 0))
        (movePts c t.v vx 0 (t.v.getD 2 0)) (movePts c t.v vx 0 (t.v.getD 3 0)) =
        volOf c t.v := hvol 0
    rw [e2] at hk
    change eps ≤ volOf (movePts c t.v vx 0) (y.v.map (val t vx 0))
    linarith
  obtain ⟨_, hch⟩ := dichLoop_choice
    (fun t' => (sim eps flag (movePts c t.v vx t') vx t.v).getD false)
  unfold dichoto
  simp only
  revert hch
  generalize (if (dichLoop (fun t' => (sim eps flag (movePts c t.v vx t') vx t.v).getD false)
    4 0 1 0 false).2.1 = true then _ else _) = τ
  intro hch
  refine ⟨movePts c t.v vx τ, ?_⟩
  have : sim eps flag (movePts c t.v vx τ) vx t.v = some true := by
    rcases hch with rfl | h
    · exact hzero
    · cases hs : sim eps flag (movePts c t.v vx τ) vx t.v with
      | none => rw [hs] at h; cases h
      | some b => rw [hs] at h; rw [show b = true from h]
  rw [this]
  rfl

end

example : WF tetEx ∧ FreshPoints (flagOf vxEx) tetEx.v vxEx ∧
    (∀ e < 6, (flagOf vxEx).testBit e = decide (0 < vxEx e)) ∧
    64 * (1 / 100 : ℚ) ≤ volOf (cEx fun _ => 0) tetEx.v := by
  refine ⟨tetEx_wf, ⟨by decide, ?_⟩, (flagOf_bits vxEx).2, ?_⟩
  · intro e _ _ e' _ _ h
    unfold vxEx at h
    omega
  · simp only [volOf, vol, tetEx, cEx, List.getD_cons_zero, List.getD_cons_succ]
    norm_num

end Mmg.Split3
