/-
  C63. Collapse of an edge of a tetrahedral mesh: the properties.
-/
import Verif.ColverLoop

namespace Mmg.Colver

open Mmg.Split3 Mmg.Swap23 Mmg.Shell

/-! ### From the list of the ball to the loop -/

/-- Vertices after the collapse. -/
def moved (p q : Nat) (v : List Nat) : List Nat := v.map fun a => if a = p then q else a

theorem rename_not (q : Nat) : ∀ (L : List Nat) (V : Nat → List Nat) (k : Nat),
    k ∉ L.map (· / 4) → rename q L V k = V k := by
  intro L
  induction L with
  | nil => intro V k _; rfl
  | cons x xs ih =>
    intro V k hk
    simp only [List.map_cons, List.mem_cons, not_or] at hk
    unfold rename
    rw [ih _ k hk.2]
    simp [hk.1]

theorem rename_mem (q : Nat) : ∀ (L : List Nat) (V : Nat → List Nat) (x : Nat),
    (L.map (· / 4)).Nodup → x ∈ L → rename q L V (x / 4) = (V (x / 4)).set (x % 4) q := by
  intro L
  induction L with
  | nil => intro V x _ h; simp at h
  | cons y ys ih =>
    intro V x hnd hx
    rw [List.map_cons, List.nodup_cons] at hnd
    unfold rename
    rcases List.mem_cons.1 hx with rfl | hx
    · rw [rename_not q ys _ _ hnd.1]
      simp
    · rw [ih _ x hnd.2 hx]
      have : x / 4 ≠ y / 4 := by
        intro h
        exact hnd.1 (h ▸ List.mem_map.2 ⟨x, hx, rfl⟩)
      simp [this]

theorem set_moved {v : List Nat} {p q i : Nat} (hl : v.length = 4) (hn : v.Nodup) (hi : i < 4)
    (hp : v.getD i 0 = p) : v.set i q = moved p q v := by
  match v, hl with
  | [a, b, c, d], _ =>
    obtain ⟨⟨n1, n2, n3, n4, n5, n6⟩, m1, m2, m3, m4, m5, m6⟩ := nodup4 hn
    interval_cases i <;> simp at hp <;> subst hp <;> simp_all [moved]

theorem moved_not {v : List Nat} {p q : Nat} (hp : p ∉ v) : moved p q v = v := by
  unfold moved
  conv_rhs => rw [← List.map_id v]
  apply List.map_congr_left
  intro a ha
  have : a ≠ p := by rintro rfl; exact hp ha
  simp [this]

theorem moved_nodup {v : List Nat} {p q : Nat} (hn : v.Nodup) (h : p ∉ v ∨ q ∉ v) :
    (moved p q v).Nodup := by
  rcases h with h | h
  · rw [moved_not h]; exact hn
  · unfold moved
    refine List.Nodup.map_on ?_ hn
    intro a ha b hb hab
    by_cases h1 : a = p
    · by_cases h2 : b = p
      · rw [h1, h2]
      · rw [if_pos h1, if_neg h2] at hab
        exact absurd (hab ▸ hb) h
    · by_cases h2 : b = p
      · rw [if_neg h1, if_pos h2] at hab
        exact absurd (hab ▸ ha) h
      · rw [if_neg h1, if_neg h2] at hab
        exact hab

theorem faceTri_moved {v : List Nat} {p q f : Nat} (hl : v.length = 4) (hf : f < 4) :
    faceTri 0 (moved p q v) f = (faceTri 0 v f).map fun a => if a = p then q else a := by
  match v, hl with
  | [a, b, c, d], _ => interval_cases f <;> rfl

theorem getD_moved {v : List Nat} {p q f : Nat} (hl : v.length = 4) (hf : f < 4) :
    (moved p q v).getD f 0 = if v.getD f 0 = p then q else v.getD f 0 := by
  match v, hl with
  | [a, b, c, d], _ => interval_cases f <;> rfl

theorem moved_len {v : List Nat} {p q : Nat} : (moved p q v).length = v.length := by
  simp [moved]

/-- The two faces of a tetrahedron of the shell that become the same. -/
theorem shell_faces {v : List Nat} {p q g : Nat} (hl : v.length = 4) (hp : p ∈ v)
    (hq : q ∈ v) (hpq : p ≠ q) (hg : g = idx v p ∨ g = idx v q) :
    faceTri 0 (moved p q v) g = faceTri 0 (moved p q v) (other v p q g) := by
  have key : faceTri 0 (moved p q v) (idx v p) = faceTri 0 (moved p q v) (idx v q) := by
    have h1 := faceTri_add (v := moved p q v) (by rw [moved_len, hl]) (idx_lt hl hp)
    have h2 := faceTri_add (v := moved p q v) (by rw [moved_len, hl]) (idx_lt hl hq)
    rw [getD_moved hl (idx_lt hl hp), idx_get hl hp, if_pos rfl] at h1
    rw [getD_moved hl (idx_lt hl hq), idx_get hl hq, if_neg hpq.symm] at h2
    exact add_right_cancel (h1.trans h2.symm)
  unfold other
  rcases hg with rfl | rfl
  · rw [if_pos rfl]; exact key
  · by_cases h : idx v q = idx v p
    · rw [if_pos h]
    · rw [if_neg h]; exact key.symm

section
variable {tref : Nat → Int} {used : Nat → Prop} {p q : Nat} {s : St}

/-- What the collapse gives, in terms of the invariant at the end of the loop. -/
theorem colver_spec (hm : Mesh s.A s.V used) (hnt : NoTwins s.A s.V used) (hfc : FaceOK tref used s)
    (hsl : Slots used s) {l : List Nat} {indq : Nat} {room : Nat → Bool}
    (hl : IsBall s.V used p l) (hne : l ≠ [])
    (hq : (s.V (l.headD 0 / 4)).getD indq 0 = q) (hpq : p ≠ q) :
    match colver tref room l indq s with
    | .refused => ∃ k, used k ∧ p ∈ s.V k ∧ q ∉ s.V k ∧ link s.A k (idx (s.V k) p) ≠ 0 ∧
        (s.V (link s.A k (idx (s.V k) p) / 4)).getD (link s.A k (idx (s.V k) p) % 4) 0 = q
    | .nomem => (∃ n, room n = false) ∧
        (∀ k, used k → p ∈ s.V k → q ∉ s.V k → link s.A k (idx (s.V k) p) ≠ 0 →
          (s.V (link s.A k (idx (s.V k) p) / 4)).getD (link s.A k (idx (s.V k) p) % 4) 0 ≠ q)
    | .asrt => False
    | .done np s' => np = p ∧
        (∀ k, used k → p ∈ s.V k → q ∉ s.V k → link s.A k (idx (s.V k) p) ≠ 0 →
          (s.V (link s.A k (idx (s.V k) p) / 4)).getD (link s.A k (idx (s.V k) p) % 4) 0 ≠ q) ∧
        (∃ s1, Inv tref used p q s [] s1 ∧ s'.A = s1.A ∧ s'.xt = s1.xt ∧ s'.R = s1.R ∧
          s'.top = s1.top ∧
          (∀ k, ¬ O s.V used p q k → s'.V k = s1.V k) ∧
          (∀ k, O s.V used p q k → s'.V k = moved p q (s.V k)) ∧
          (∀ k, D s.V used p q k → s'.xt k = 0) ∧ ∀ k, ¬ used k → s'.xt k = s.xt k) := by
  have hidx : ∀ x ∈ l, x % 4 = idx (s.V (x / 4)) p := by
    intro x hx
    obtain ⟨h1, h2⟩ := hl.ent x hx
    exact (idx_eq (hm.len _ h1) (hm.nd _ h1) (Nat.mod_lt _ (by decide)) h2).symm
  have hmem : ∀ x ∈ l, p ∈ s.V (x / 4) := by
    intro x hx
    obtain ⟨h1, h2⟩ := hl.ent x hx
    rw [← h2]
    exact getD_mem (hm.len _ h1) (Nat.mod_lt _ (by decide))
  have hx0 : l.headD 0 ∈ l := by
    cases l with
    | nil => exact absurd rfl hne
    | cons a t => simp
  have hp0 : (s.V (l.headD 0 / 4)).getD (l.headD 0 % 4) 0 = p := (hl.ent _ hx0).2
  have hsh : ∀ x ∈ l, ((findq (s.V (x / 4)) (x % 4) q).isSome = true ↔ q ∈ s.V (x / 4)) := by
    intro x hx
    obtain ⟨h1, h2⟩ := hl.ent x hx
    rw [findq_spec (hm.len _ h1) (hm.nd _ h1) (Nat.mod_lt _ (by decide)) (by rw [h2]; exact hpq)]
    by_cases h : q ∈ s.V (x / 4)
    · simp [h]
    · simp [h]
  have hchk : (l.any fun x => !(findq (s.V (x / 4)) (x % 4) q).isSome &&
      decide (link s.A (x / 4) (x % 4) ≠ 0) &&
      decide ((s.V (link s.A (x / 4) (x % 4) / 4)).getD (link s.A (x / 4) (x % 4) % 4) 0 = q)) = true ↔
      ∃ k, used k ∧ p ∈ s.V k ∧ q ∉ s.V k ∧ link s.A k (idx (s.V k) p) ≠ 0 ∧
        (s.V (link s.A k (idx (s.V k) p) / 4)).getD (link s.A k (idx (s.V k) p) % 4) 0 = q := by
    rw [List.any_eq_true]
    constructor
    · rintro ⟨x, hx, h⟩
      simp only [Bool.and_eq_true, Bool.not_eq_true', decide_eq_true_eq] at h
      obtain ⟨⟨h1, h2⟩, h3⟩ := h
      rw [hidx x hx] at h2 h3
      refine ⟨x / 4, (hl.ent x hx).1, hmem x hx, fun hc => ?_, h2, h3⟩
      rw [(hsh x hx).2 hc] at h1
      exact absurd h1 (by decide)
    · rintro ⟨k, h1, h2, h3, h4, h5⟩
      obtain ⟨x, hx, rfl⟩ := List.mem_map.1 (hl.all k h1 h2)
      refine ⟨x, hx, ?_⟩
      simp only [Bool.and_eq_true, Bool.not_eq_true', decide_eq_true_eq]
      rw [hidx x hx]
      refine ⟨⟨?_, h4⟩, h5⟩
      rw [← hidx x hx]
      by_contra hc
      rw [Bool.not_eq_false] at hc
      exact h3 ((hsh x hx).1 hc)
  unfold colver
  simp only [hq, hp0]
  by_cases hc : (l.any fun x => !(findq (s.V (x / 4)) (x % 4) q).isSome &&
      decide (link s.A (x / 4) (x % 4) ≠ 0) &&
      decide ((s.V (link s.A (x / 4) (x % 4) / 4)).getD (link s.A (x / 4) (x % 4) % 4) 0 = q)) = true
  · rw [if_pos hc]
    exact hchk.1 hc
  · rw [if_neg hc]
    have hLmem : ∀ x ∈ l.filter fun x => (findq (s.V (x / 4)) (x % 4) q).isSome,
        D s.V used p q (x / 4) ∧ x % 4 = idx (s.V (x / 4)) p := by
      intro x hx
      rw [List.mem_filter] at hx
      exact ⟨⟨(hl.ent x hx.1).1, hmem x hx.1, (hsh x hx.1).1 hx.2⟩, hidx x hx.1⟩
    have hLall : ∀ k, D s.V used p q k →
        k ∈ (l.filter fun x => (findq (s.V (x / 4)) (x % 4) q).isSome).map (· / 4) := by
      intro k hk
      obtain ⟨x, hx, rfl⟩ := List.mem_map.1 (hl.all k hk.1 hk.2.1)
      exact List.mem_map.2 ⟨x, List.mem_filter.2 ⟨hx, (hsh x hx).2 hk.2.2⟩, rfl⟩
    have hnd : ∀ P : Nat → Bool, ((l.filter P).map (· / 4)).Nodup := fun P =>
      hl.nd.sublist (List.Sublist.map _ List.filter_sublist)
    have hI : Inv tref used p q s
        ((l.filter fun x => (findq (s.V (x / 4)) (x % 4) q).isSome).map (· / 4)) s := by
      have hno : ∀ k f, ¬ Cond used p q s
          ((l.filter fun x => (findq (s.V (x / 4)) (x % 4) q).isSome).map (· / 4)) k f := by
        rintro k f ⟨_, h2, h3⟩
        exact h3 (hLall _ h2)
      have hlu : ∀ k, live used p q s
          ((l.filter fun x => (findq (s.V (x / 4)) (x % 4) q).isSome).map (· / 4)) k → used k := by
        rintro k (h | h)
        · exact h.1
        · obtain ⟨x, hx, rfl⟩ := List.mem_map.1 h
          exact (hLmem x hx).1.1
      refine ⟨fun k _ f _ h => absurd h (hno k f), fun _ _ _ _ _ => rfl, fun _ _ _ _ => rfl,
        fun _ _ => rfl, slots_mono hlu hsl, fun _ _ => ⟨rfl, fun _ => rfl⟩,
        fun k _ f _ h => absurd h (hno k f), fun _ _ _ _ _ => rfl, fun _ _ h => h,
        fun k _ _ f _ h => absurd h (hno k f), ?_, ?_, fun _ _ => rfl⟩
      · intro k _ h0 f _ _
        rw [if_neg h0]
      · intro k hk hr
        exact absurd (hLall k hk) hr
    have := steps_inv hm hnt hpq hfc (room := room) _ s hLmem (hnd _) hI
    have hg := fun s1 => steps_gone hm hnt hpq hfc (room := room) _ s s1 hLmem (hnd _) hI
      (fun k hk hr => absurd (hLall k hk) hr) (fun _ _ => rfl)
    revert this hg
    generalize steps tref room q (l.filter fun x => (findq (s.V (x / 4)) (x % 4) q).isSome) s = R
    intro h hg
    match R, h, hg with
    | .nomem, h, _ => exact ⟨h, fun k h1 h2 h3 h4 h5 => hc (hchk.2 ⟨k, h1, h2, h3, h4, h5⟩)⟩
    | .ok s1, h, hg =>
      refine ⟨rfl, ?_, s1, h, rfl, rfl, rfl, rfl, ?_, ?_, (hg s1 rfl).1, (hg s1 rfl).2⟩
      · intro k h1 h2 h3 h4 h5
        exact hc (hchk.2 ⟨k, h1, h2, h3, h4, h5⟩)
      · intro k hk
        apply rename_not
        intro hc'
        obtain ⟨x, hx, rfl⟩ := List.mem_map.1 hc'
        rw [List.mem_filter] at hx
        apply hk
        refine ⟨(hl.ent x hx.1).1, fun hd => ?_⟩
        have h6 := (hsh x hx.1).2 hd.2.2
        rw [h6] at hx
        exact absurd hx.2 (by decide)
      · intro k hk
        simp only
        by_cases hb : p ∈ s.V k
        · obtain ⟨x, hx, rfl⟩ := List.mem_map.1 (hl.all k hk.1 hb)
          have hxq : x ∈ l.filter fun x => !(findq (s.V (x / 4)) (x % 4) q).isSome := by
            rw [List.mem_filter]
            refine ⟨hx, ?_⟩
            rw [Bool.not_eq_true']
            by_contra hc'
            rw [Bool.not_eq_false] at hc'
            exact hk.2 ⟨hk.1, hb, (hsh x hx).1 hc'⟩
          rw [rename_mem q _ s1.V x (hnd _) hxq, h.ver _ (.inl hk)]
          exact set_moved (hm.len _ hk.1) (hm.nd _ hk.1) (Nat.mod_lt _ (by decide)) (hl.ent x hx).2
        · rw [rename_not, h.ver _ (.inl hk), moved_not hb]
          intro hc'
          obtain ⟨x, hx, rfl⟩ := List.mem_map.1 hc'
          rw [List.mem_filter] at hx
          exact hb (hmem x hx.1)

/-- The face in front of a tetrahedron of the shell. -/
theorem glued_facts (hm : Mesh s.A s.V used) (hnt : NoTwins s.A s.V used) (hpq : p ≠ q) {k f : Nat}
    (hk : O s.V used p q k) (hf : f < 4) (hc : Cond used p q s [] k f) :
    ∃ e g h, D s.V used p q e ∧ g < 4 ∧ h < 4 ∧ (g = idx (s.V e) p ∨ g = idx (s.V e) q) ∧
      h = other (s.V e) p q g ∧ g = other (s.V e) p q h ∧ g ≠ h ∧
      link s.A k f = 4 * e + g ∧ link s.A e g = 4 * k + f ∧ glued p q s k f = link s.A e h ∧
      faceTri 0 (s.V e) g = faceTri 0 (s.V k) f ∧
      val p q s k f = (if g = idx (s.V e) p ∧ link s.A e h = 0 then fd s e h
        else merge (fd s e g) (fd s e h)) ∧
      (link s.A e h ≠ 0 → O s.V used p q (link s.A e h / 4) ∧ link s.A e h / 4 ≠ k ∧
        link s.A (link s.A e h / 4) (link s.A e h % 4) = 4 * e + h ∧
        Cond used p q s [] (link s.A e h / 4) (link s.A e h % 4) ∧
        glued p q s (link s.A e h / 4) (link s.A e h % 4) = 4 * k + f ∧
        faceTri 0 (s.V (link s.A e h / 4)) (link s.A e h % 4) = faceTri 0 (s.V e) h) := by
  obtain ⟨h0, hd, _⟩ := hc
  have ho := out_shell hm hnt hpq hk hf h0 hd
  obtain ⟨_, _, hs, hfa⟩ := hm.adj.ok k hk.1 f hf h0
  have hk1 := hm.adj.pos k hk.1
  obtain ⟨e, he⟩ : ∃ e, e = link s.A k f / 4 := ⟨_, rfl⟩
  obtain ⟨g, hg⟩ : ∃ g, g = link s.A k f % 4 := ⟨_, rfl⟩
  have hval : val p q s k f = (if g = idx (s.V e) p ∧ link s.A e (other (s.V e) p q g) = 0
      then fd s e (other (s.V e) p q g)
      else merge (fd s e g) (fd s e (other (s.V e) p q g))) := by
    rw [he, hg]; rfl
  have hgl : glued p q s k f = link s.A e (other (s.V e) p q g) := by rw [he, hg]; rfl
  rw [← he] at hd
  rw [← he, ← hg] at ho hs hfa
  have hip := idx_lt (hm.len _ hd.1) hd.2.1
  have hiq := idx_lt (hm.len _ hd.1) hd.2.2
  have hne := shell_ne hm hnt hpq hd
  have hg4 : g < 4 := by rw [hg]; exact Nat.mod_lt _ (by decide)
  have hh : (other (s.V e) p q g = idx (s.V e) p ∨ other (s.V e) p q g = idx (s.V e) q) ∧
      other (s.V e) p q g ≠ g ∧ other (s.V e) p q (other (s.V e) p q g) = g := by
    unfold other
    rcases ho with h | h
    · rw [if_pos h, if_neg hne.symm]
      exact ⟨.inr rfl, fun hc => hne (h.symm.trans hc.symm), h.symm⟩
    · rw [h, if_neg hne.symm, if_pos rfl]
      exact ⟨.inl rfl, hne, rfl⟩
  obtain ⟨hh1, hh2, hh3⟩ := hh
  have hh4 : other (s.V e) p q g < 4 := by rcases hh1 with h | h <;> rw [h] <;> assumption
  have he1 := hm.adj.pos e hd.1
  refine ⟨e, g, _, hd, hg4, hh4, ho, rfl, hh3.symm, hh2.symm, by omega, hs, hgl, hfa, hval, ?_⟩
  intro hy
  obtain ⟨y1, y2, y3, y4⟩ := hm.adj.ok e hd.1 _ hh4 hy
  have hOy : O s.V used p q (link s.A e (other (s.V e) p q g) / 4) := by
    rcases hh1 with h | h
    · rw [h] at hy ⊢; exact (shell_p hm hnt hpq hd hy).1
    · rw [h] at hy ⊢; exact (shell_q hm hnt hpq hd hy).1
  have hky : link s.A e (other (s.V e) p q g) / 4 ≠ k := by
    have hsg : link s.A e g ≠ 0 := by rw [hs]; omega
    have hkk : link s.A e g / 4 = k := by rw [hs]; omega
    intro hc
    rcases ho with h | h
    · have h1 := (shell_p hm hnt hpq hd (h ▸ hsg)).2.1
      rw [← h, hkk] at h1
      have h2 : other (s.V e) p q g = idx (s.V e) q := by unfold other; rw [if_pos h]
      rw [h2] at hy hc
      have h3 := (shell_q hm hnt hpq hd hy).2.1
      rw [hc] at h3
      exact h1 h3
    · have h1 := (shell_q hm hnt hpq hd (h ▸ hsg)).2.1
      rw [← h, hkk] at h1
      have h2 : other (s.V e) p q g = idx (s.V e) p := by
        unfold other; rw [if_neg (by rw [h]; exact hne.symm)]
      rw [h2] at hy hc
      have h3 := (shell_p hm hnt hpq hd hy).2.1
      rw [hc] at h3
      exact h3 h1
  refine ⟨hOy, hky, y3, ⟨by rw [y3]; omega, ?_, by simp⟩, ?_, y4⟩
  · rw [y3, show (4 * e + other (s.V e) p q g) / 4 = e by omega]; exact hd
  · unfold glued
    rw [y3, show (4 * e + other (s.V e) p q g) / 4 = e by omega,
      show (4 * e + other (s.V e) p q g) % 4 = other (s.V e) p q g by omega, hh3, hs]

/-- A face that is not in front of the shell. -/
theorem plain_facts (hm : Mesh s.A s.V used) {k f : Nat} (hk : O s.V used p q k) (hf : f < 4)
    (hc : ¬ Cond used p q s [] k f) (h0 : link s.A k f ≠ 0) :
    O s.V used p q (link s.A k f / 4) ∧
      ¬ Cond used p q s [] (link s.A k f / 4) (link s.A k f % 4) := by
  obtain ⟨h1, _, h3, _⟩ := hm.adj.ok k hk.1 f hf h0
  have hO : O s.V used p q (link s.A k f / 4) := ⟨h1, fun hd => hc ⟨h0, hd, by simp⟩⟩
  refine ⟨hO, ?_⟩
  rintro ⟨_, h5, _⟩
  rw [h3, show (4 * k + f) / 4 = k by omega] at h5
  exact hk.2 h5

theorem final_mesh (hm : Mesh s.A s.V used) (hnt : NoTwins s.A s.V used) (hpq : p ≠ q) {s1 s' : St}
    (hI : Inv tref used p q s [] s1) (hA : s'.A = s1.A)
    (hV : ∀ k, O s.V used p q k → s'.V k = moved p q (s.V k)) :
    Mesh s'.A s'.V (O s.V used p q) := by
  refine ⟨⟨fun k hk => hm.adj.pos k hk.1, ?_⟩, ?_, ?_⟩
  · intro k hk f hf h0
    rw [hA] at h0 ⊢
    by_cases hc : Cond used p q s [] k f
    · obtain ⟨e, g, h, hd, hg, hh, hgo, rfl, hgg, hgh, hl1, hl2, hgl, hf1, _, hy⟩ :=
        glued_facts hm hnt hpq hk hf hc
      have hL := hI.linkG k hk f hf hc
      rw [hL, hgl] at h0 ⊢
      obtain ⟨hOy, hky, y3, hcy, hgy, hfy⟩ := hy h0
      refine ⟨hOy, hky, ?_, ?_⟩
      · rw [hI.linkG _ hOy _ (Nat.mod_lt _ (by decide)) hcy, hgy]
      · rw [hV _ hOy, hV _ hk, faceTri_moved (hm.len _ hOy.1) (Nat.mod_lt _ (by decide)), hfy,
          faceTri_moved (hm.len _ hk.1) hf, ← hf1, ← faceTri_moved (hm.len _ hd.1) hh,
          ← faceTri_moved (hm.len _ hd.1) hg]
        exact (shell_faces (hm.len _ hd.1) hd.2.1 hd.2.2 hpq hgo).symm
    · have hL := hI.linkN k hk f hf hc
      rw [hL] at h0 ⊢
      obtain ⟨hOy, hcy⟩ := plain_facts hm hk hf hc h0
      obtain ⟨_, h2, h3, h4⟩ := hm.adj.ok k hk.1 f hf h0
      refine ⟨hOy, h2, ?_, ?_⟩
      · rw [hI.linkN _ hOy _ (Nat.mod_lt _ (by decide)) hcy, h3]
      · rw [hV _ hOy, hV _ hk, faceTri_moved (hm.len _ hOy.1) (Nat.mod_lt _ (by decide)), h4,
          faceTri_moved (hm.len _ hk.1) hf]
  · intro k hk
    rw [hV k hk, moved_len]
    exact hm.len k hk.1
  · intro k hk
    rw [hV k hk]
    apply moved_nodup (hm.nd k hk.1)
    by_contra hc
    rw [not_or, not_not, not_not] at hc
    exact hk.2 ⟨hk.1, hc⟩

theorem merge_comm (a b : Int × Nat) : merge a b = merge b a := by
  unfold merge
  rw [max_comm, Nat.or_comm]

theorem bdy_merge (a b : Int × Nat) : bdy (merge a b).2 = (bdy a.2 || bdy b.2) := by
  unfold merge bdy
  simp only [Nat.testBit_or]

theorem final_faces (hm : Mesh s.A s.V used) (hnt : NoTwins s.A s.V used) (hpq : p ≠ q)
    (hfc : FaceOK tref used s) {s1 : St} (hI : Inv tref used p q s [] s1) :
    FaceOK tref (O s.V used p q) s1 := by
  have hxt : ∀ k f, bdy (fd s1 k f).2 = true → s1.xt k ≠ 0 := by
    intro k f h h0
    unfold fd at h
    rw [if_pos h0] at h
    exact absurd h (by decide)
  have hxt0 : ∀ k f, bdy (fd s k f).2 = true → s.xt k ≠ 0 := by
    intro k f h h0
    unfold fd at h
    rw [if_pos h0] at h
    exact absurd h (by decide)
  -- the boundary faces in front of the shell
  have hvb : ∀ k f, O s.V used p q k → f < 4 → Cond used p q s [] k f →
      (glued p q s k f = 0 ∨ tref k ≠ tref (glued p q s k f / 4)) → bdy (val p q s k f).2 = true := by
    intro k f hk hf hc hcase
    obtain ⟨e, g, h, hd, hg, hh, hgo, hho, hgg, hgh, hl1, hl2, hgl, hf1, hv, hy⟩ :=
      glued_facts hm hnt hpq hk hf hc
    rw [hgl] at hcase
    rw [hv]
    by_cases h0 : link s.A e h = 0
    · have hb := (hfc.outer e hd.1 h hh h0).1
      by_cases h1 : g = idx (s.V e) p ∧ link s.A e h = 0
      · rw [if_pos h1]; exact hb
      · rw [if_neg h1, bdy_merge, hb, Bool.or_true]
    · rw [if_neg (fun h1 => h0 h1.2), bdy_merge]
      have hne := hcase.resolve_left h0
      by_cases h2 : tref k = tref e
      · have := hfc.diff e hd.1 h hh h0 (by rw [← h2]; exact hne)
        rw [this, Bool.or_true]
      · have hk1 := hm.adj.pos k hk.1
        have := hfc.diff e hd.1 g hg (by rw [hl2]; omega)
          (by rw [hl2, show (4 * k + f) / 4 = k by omega]; exact Ne.symm h2)
        rw [this, Bool.true_or]
  refine ⟨?_, ?_, ?_, ?_, ?_⟩
  · intro k hk f hf
    by_cases hc : Cond used p q s [] k f
    · rw [hI.dataG k hk f hf hc]
      obtain ⟨e, g, h, hd, hg, hh, _, _, _, _, _, _, _, _, hv, _⟩ :=
        glued_facts hm hnt hpq hk hf hc
      rw [hv]
      have h1 := hfc.nonneg e hd.1 h hh
      by_cases h2 : g = idx (s.V e) p ∧ link s.A e h = 0
      · rw [if_pos h2]; exact h1
      · rw [if_neg h2]; exact le_max_of_le_right h1
    · rw [hI.dataN k hk f hf hc]
      exact hfc.nonneg k hk.1 f hf
  · intro k hk f hf h0
    by_cases hc : Cond used p q s [] k f
    · obtain ⟨e, g, h, hd, hg, hh, hgo, hho, hgg, hgh, hl1, hl2, hgl, hf1, hv, hy⟩ :=
        glued_facts hm hnt hpq hk hf hc
      have hL := hI.linkG k hk f hf hc
      rw [hgl] at hL
      rw [hL] at h0 ⊢
      obtain ⟨hOy, hky, y3, hcy, hgy, hfy⟩ := hy h0
      rw [hI.dataG k hk f hf hc, hI.dataG _ hOy _ (Nat.mod_lt _ (by decide)) hcy, hv,
        if_neg (fun h1 => h0 h1.2)]
      have hk1 := hm.adj.pos k hk.1
      unfold val
      rw [y3, show (4 * e + h) / 4 = e by omega, show (4 * e + h) % 4 = h by omega]
      simp only [← hgg]
      rw [if_neg (fun h1 => by rw [hl2] at h1; omega), merge_comm]
    · have hL := hI.linkN k hk f hf hc
      rw [hL] at h0 ⊢
      obtain ⟨hOy, hcy⟩ := plain_facts hm hk hf hc h0
      rw [hI.dataN k hk f hf hc, hI.dataN _ hOy _ (Nat.mod_lt _ (by decide)) hcy]
      exact hfc.sides k hk.1 f hf h0
  · intro k hk f hf h0
    by_cases hc : Cond used p q s [] k f
    · have hL := hI.linkG k hk f hf hc
      have hb := hvb k f hk hf hc (.inl (hL ▸ h0))
      have hx : s1.xt k ≠ 0 := hxt k f (by rw [hI.dataG k hk f hf hc]; exact hb)
      refine ⟨by rw [hI.dataG k hk f hf hc]; exact hb, ?_⟩
      exact (hI.oriG k hk hx f hf hc hb).1 (hL ▸ h0)
    · have hL := hI.linkN k hk f hf hc
      obtain ⟨hb, ho⟩ := hfc.outer k hk.1 f hf (hL ▸ h0)
      have hx : s1.xt k ≠ 0 := hxt k f (by rw [hI.dataN k hk f hf hc]; exact hb)
      refine ⟨by rw [hI.dataN k hk f hf hc]; exact hb, ?_⟩
      rw [hI.oriN k hk hx f hf hc, if_neg (hxt0 k f hb)]
      exact ho
  · intro k hk f hf h0 hne
    by_cases hc : Cond used p q s [] k f
    · have hL := hI.linkG k hk f hf hc
      rw [hI.dataG k hk f hf hc]
      exact hvb k f hk hf hc (.inr (by rw [← hL]; exact hne))
    · have hL := hI.linkN k hk f hf hc
      rw [hI.dataN k hk f hf hc]
      rw [hL] at h0 hne
      exact hfc.diff k hk.1 f hf h0 hne
  · intro k hk f hf h0
    by_cases hc : Cond used p q s [] k f
    · have hL := hI.linkG k hk f hf hc
      have key : tref k ≠ tref (link s1.A k f / 4) →
          OriSpec tref (glued p q s k f) k (Colver.ori s1 k f) := by
        intro hne
        have hb := hvb k f hk hf hc (.inr (by rw [← hL]; exact hne))
        have hx : s1.xt k ≠ 0 := hxt k f (by rw [hI.dataG k hk f hf hc]; exact hb)
        exact hI.oriG k hk hx f hf hc hb
      constructor
      · intro hlt
        have := (key (by omega)).2 (by rw [← hL]; exact h0)
        rw [← hL] at this
        exact this.1 hlt
      · intro hlt
        have := (key (by omega)).2 (by rw [← hL]; exact h0)
        rw [← hL] at this
        exact this.2 hlt
    · have hL := hI.linkN k hk f hf hc
      rw [hL] at h0 ⊢
      have key : tref k ≠ tref (link s.A k f / 4) → Colver.ori s1 k f = Colver.ori s k f := by
        intro hne
        have hb := hfc.diff k hk.1 f hf h0 hne
        have hx : s1.xt k ≠ 0 := hxt k f (by rw [hI.dataN k hk f hf hc]; exact hb)
        rw [hI.oriN k hk hx f hf hc, if_neg (hxt0 k f hb)]
      constructor
      · intro hlt
        rw [key (by omega)]
        exact (hfc.ori k hk.1 f hf h0).1 hlt
      · intro hlt
        rw [key (by omega)]
        exact (hfc.ori k hk.1 f hf h0).2 hlt

theorem final_twins (hm : Mesh s.A s.V used) (hnt : NoTwins s.A s.V used) (hpq : p ≠ q)
    (hcm : Complete s.A s.V used) {s1 s' : St}
    (hI : Inv tref used p q s [] s1) (hA : s'.A = s1.A)
    (hV : ∀ k, O s.V used p q k → s'.V k = moved p q (s.V k))
    (hchk : ∀ k, used k → p ∈ s.V k → q ∉ s.V k → link s.A k (idx (s.V k) p) ≠ 0 →
      (s.V (link s.A k (idx (s.V k) p) / 4)).getD (link s.A k (idx (s.V k) p) % 4) 0 ≠ q) :
    NoTwins s'.A s'.V (O s.V used p q) := by
  -- a tetrahedron with `p` and its neighbour in front of `p`
  have hop : ∀ k f, O s.V used p q k → f < 4 → link s.A k f ≠ 0 → (s.V k).getD f 0 = p →
      (s.V (link s.A k f / 4)).getD (link s.A k f % 4) 0 ≠ q := by
    intro k f hk hf h0 hp
    have hpm : p ∈ s.V k := hp ▸ getD_mem (hm.len _ hk.1) hf
    have hi := idx_eq (hm.len _ hk.1) (hm.nd _ hk.1) hf hp
    have := hchk k hk.1 hpm (fun hq => hk.2 ⟨hk.1, hpm, hq⟩) (by rw [hi]; exact h0)
    rw [hi] at this
    exact this
  intro k hk f hf h0
  rw [hA] at h0 ⊢
  by_cases hc : Cond used p q s [] k f
  · obtain ⟨e, g, h, hd, hg, hh, hgo, hho, hgg, hgh, hl1, hl2, hgl, hf1, hv, hy⟩ :=
      glued_facts hm hnt hpq hk hf hc
    have hL := hI.linkG k hk f hf hc
    rw [hgl] at hL
    rw [hL] at h0 ⊢
    obtain ⟨hOy, hky, y3, hcy, hgy, hfy⟩ := hy h0
    rw [hV _ hOy, hV _ hk, getD_moved (hm.len _ hOy.1) (Nat.mod_lt _ (by decide)),
      getD_moved (hm.len _ hk.1) hf]
    -- the two tetrahedra, one with `p` and one with `q`
    have main : ∀ k1 f1 k2 f2, O s.V used p q k1 → O s.V used p q k2 → f1 < 4 → f2 < 4 →
        faceTri 0 (s.V k1) f1 = faceTri 0 (s.V e) (idx (s.V e) q) →
        faceTri 0 (s.V k2) f2 = faceTri 0 (s.V e) (idx (s.V e) p) →
        (s.V k2).getD f2 0 ≠ (s.V k1).getD f1 0 ∧ (s.V k1).getD f1 0 ≠ p ∧
          (s.V k2).getD f2 0 ≠ p := by
      intro k1 f1 k2 f2 hO1 hO2 hf1 hf2 hF1 hF2
      have hlen1 := hm.len _ hO1.1
      have hlen2 := hm.len _ hO2.1
      have hip := idx_lt (hm.len _ hd.1) hd.2.1
      have hiq := idx_lt (hm.len _ hd.1) hd.2.2
      have hne := shell_ne hm hnt hpq hd
      have hpf : p ∈ faceTri 0 (s.V k1) f1 := by
        rw [hF1]
        have := mem_face (hm.len _ hd.1) hip hiq hne
        rw [idx_get (hm.len _ hd.1) hd.2.1] at this
        exact this
      have hqf : q ∈ faceTri 0 (s.V k2) f2 := by
        rw [hF2]
        have := mem_face (hm.len _ hd.1) hiq hip hne.symm
        rw [idx_get (hm.len _ hd.1) hd.2.2] at this
        exact this
      have hp1 : p ∈ s.V k1 := mem_of_face hlen1 hf1 hpf
      have hq2 : q ∈ s.V k2 := mem_of_face hlen2 hf2 hqf
      have ho1 : (s.V k1).getD f1 0 ≠ p := by
        intro hc'
        have hfa := faceTri_add hlen1 hf1
        have hnd : (faceTri 0 (s.V k1) f1 + {(s.V k1).getD f1 0}).Nodup := by
          rw [hfa]; exact Multiset.coe_nodup.2 (hm.nd k1 hO1.1)
        exact Multiset.disjoint_left.1 (Multiset.nodup_add.1 hnd).2.2 hpf (by rw [hc']; simp)
      have ho2 : (s.V k2).getD f2 0 ≠ p := by
        intro hc'
        exact hO2.2 ⟨hO2.1, hc' ▸ getD_mem hlen2 hf2, hq2⟩
      refine ⟨?_, ho1, ho2⟩
      intro heq
      -- same opposite vertex: the faces opposite to `p` and `q` have the same vertices
      have he1 := faceTri_add (hm.len _ hd.1) hip
      have he2 := faceTri_add (hm.len _ hd.1) hiq
      rw [idx_get (hm.len _ hd.1) hd.2.1] at he1
      rw [idx_get (hm.len _ hd.1) hd.2.2] at he2
      have hk1 := faceTri_add hlen1 hf1
      have hk2 := faceTri_add hlen2 hf2
      have hk1p := faceTri_add hlen1 (idx_lt hlen1 hp1)
      have hk2q := faceTri_add hlen2 (idx_lt hlen2 hq2)
      rw [idx_get hlen1 hp1] at hk1p
      rw [idx_get hlen2 hq2] at hk2q
      have hface : faceTri 0 (s.V k1) (idx (s.V k1) p) = faceTri 0 (s.V k2) (idx (s.V k2) q) := by
        apply add_right_cancel (b := {p} + {q})
        rw [← add_assoc, hk1p, ← hk1, hF1, add_assoc, add_comm _ ({q} : Multiset Nat), ← add_assoc,
          he2, ← he1, ← hF2]
        rw [add_comm ({p} : Multiset Nat) {q}, ← add_assoc, hk2q, ← hk2, heq]
        rw [add_assoc, add_assoc, add_comm ({p} : Multiset Nat)]
      have hk1' : k1 ≠ k2 := by
        rintro rfl
        exact hO1.2 ⟨hO1.1, hp1, hq2⟩
      have hlk := hcm k1 k2 hO1.1 hO2.1 _ (idx_lt hlen1 hp1) _ (idx_lt hlen2 hq2)
        (fun h => hk1' (congrArg Prod.fst h)) hface
      have hi2 := idx_lt hlen2 hq2
      have hp2 := hm.adj.pos k2 hO2.1
      have := hop k1 (idx (s.V k1) p) hO1 (idx_lt hlen1 hp1) (by rw [hlk]; omega)
        (idx_get hlen1 hp1)
      rw [hlk, show (4 * k2 + idx (s.V k2) q) / 4 = k2 by omega,
        show (4 * k2 + idx (s.V k2) q) % 4 = idx (s.V k2) q by omega] at this
      exact this (idx_get hlen2 hq2)
    rcases hgo with hg' | hg'
    · have hh' : h = idx (s.V e) q := by rw [hho]; unfold other; rw [if_pos hg']
      obtain ⟨m1, m2, m3⟩ := main _ _ k f hOy hk (Nat.mod_lt _ (by decide)) hf
        (by rw [hfy, hh']) (by rw [← hf1, hg'])
      rw [if_neg m2, if_neg m3]
      exact m1.symm
    · have hh' : h = idx (s.V e) p := by
        rw [hho]; unfold other
        rw [if_neg (by rw [hg']; exact (shell_ne hm hnt hpq hd).symm)]
      obtain ⟨m1, m2, m3⟩ := main k f _ _ hk hOy hf (Nat.mod_lt _ (by decide))
        (by rw [← hf1, hg']) (by rw [hfy, hh'])
      rw [if_neg m2, if_neg m3]
      exact m1
  · have hL := hI.linkN k hk f hf hc
    rw [hL] at h0 ⊢
    obtain ⟨hOy, hcy⟩ := plain_facts hm hk hf hc h0
    obtain ⟨_, _, h3, _⟩ := hm.adj.ok k hk.1 f hf h0
    have hne := hnt k hk.1 f hf h0
    have hk1 := hm.adj.pos k hk.1
    rw [hV _ hOy, hV _ hk, getD_moved (hm.len _ hOy.1) (Nat.mod_lt _ (by decide)),
      getD_moved (hm.len _ hk.1) hf]
    by_cases h1 : (s.V k).getD f 0 = p
    · have h2 := hop k f hk hf h0 h1
      rw [if_pos h1, if_neg (by rw [← h1]; exact hne)]
      exact h2
    · rw [if_neg h1]
      by_cases h2 : (s.V (link s.A k f / 4)).getD (link s.A k f % 4) 0 = p
      · rw [if_pos h2]
        have := hop _ _ hOy (Nat.mod_lt _ (by decide)) (by rw [h3]; omega) h2
        rw [h3, show (4 * k + f) / 4 = k by omega, show (4 * k + f) % 4 = f by omega] at this
        exact this.symm
      · rw [if_neg h2]; exact hne

end
end Mmg.Colver
