/-
  The split of an edge (`Spl1bModel`): the faces after the split come from faces before, with their boundary data.
-/
import Verif.Spl1bRec

namespace Mmg.Spl1b

open Mmg.Split3 Mmg.Swap23 Mmg.Shell

variable {I : In} {A : Nat → Nat} {V : Nat → List Nat} {used : Nat → Prop} {na nb : Nat}

/-- Tetrahedron `e` after the split is, or is a part of, tetrahedron `p`. -/
def Org (I : In) (used : Nat → Prop) (e p : Nat) : Prop := used e ∧ p = e ∨ ∃ k < I.n, e = I.new k ∧ p = I.iel k

/-- A face between the two parts of a tetrahedron. -/
def Inner (I : In) (e f : Nat) : Prop := ∃ k < I.n, e = I.iel k ∧ f = I.t k 0 ∨ e = I.new k ∧ f = I.t k 1

theorem After.org {e : Nat} (h : After I used e) : ∃ p, Org I used e p := by
  rcases h with h | ⟨k, hk, h⟩
  · exact ⟨e, .inl ⟨h, rfl⟩⟩
  · exact ⟨I.iel k, .inr ⟨k, hk, h, rfl⟩⟩

theorem Pre.org_used (H : Pre I A V used na nb) {e p : Nat} (h : Org I used e p) : used p := by
  rcases h with ⟨h, rfl⟩ | ⟨k, hk, _, rfl⟩
  · exact h
  · exact (H.tet hk).us

/-- The links after the split, by face. -/
theorem Pre.links (H : Pre I A V used na nb) {sg : Nat → Bool} {A' : Nat → Nat} (hA : InvA I sg A used I.n A')
    {e p f : Nat} (ho : Org I used e p) (hf : f < 4) :
    (Inner I e f → ∃ e2 f2, link A' e f = 4 * e2 + f2 ∧ f2 < 4 ∧ 1 ≤ e2 ∧ Org I used e2 p ∧ Inner I e2 f2) ∧
    (¬ Inner I e f → (link A p f = 0 → link A' e f = 0) ∧
      (link A p f ≠ 0 → link A' e f ≠ 0 ∧ Org I used (link A' e f / 4) (link A p f / 4) ∧
        link A' e f % 4 = link A p f % 4 ∧ ¬ Inner I (link A' e f / 4) (link A' e f % 4))) := by
  have T := fun k (hk : k < I.n) => H.tet hk
  have lt : ∀ k < I.n, ∀ i < 4, I.t k i < 4 := fun k hk i hi => (T k hk).perm.lt i hi
  have b : ∀ k < I.n, ∀ i < 4, ∀ j < 4, i ≠ j → I.t k i ≠ I.t k j := fun k hk i hi j hj hij h =>
    hij ((T k hk).perm.inj i hi j hj h)
  have aux : ∀ p q, q < 4 → (4 * p + q) / 4 = p ∧ (4 * p + q) % 4 = q := fun p q hq => by omega
  -- what is inner
  have in1 : ∀ k < I.n, ∀ f, Inner I (I.iel k) f → f = I.t k 0 := by
    rintro k hk f ⟨m, hm, ⟨h, rfl⟩ | ⟨h, rfl⟩⟩
    · rw [H.round.inj _ hk _ hm h]
    · exact absurd h (H.iel_new hk hm)
  have in2 : ∀ k < I.n, ∀ f, Inner I (I.new k) f → f = I.t k 1 := by
    rintro k hk f ⟨m, hm, ⟨h, rfl⟩ | ⟨h, rfl⟩⟩
    · exact absurd h.symm (H.iel_new hm hk)
    · rw [H.fresh.inj _ hk _ hm h]
  have in3 : ∀ e, used e → (∀ k < I.n, e ≠ I.iel k) → ∀ f, ¬ Inner I e f := by
    rintro e he hn f ⟨m, hm, ⟨h, _⟩ | ⟨h, _⟩⟩
    · exact hn m hm h
    · exact H.fresh.free m hm (h ▸ he)
  -- outer faces of the parts
  have outer : ∀ k < I.n, ∀ f, f = I.t k 0 ∨ f = I.t k 1 → ∀ x, x = link A (I.iel k) f → (x = 0 → x = 0) ∧
      (link A (I.iel k) f ≠ 0 → x ≠ 0 ∧ Org I used (x / 4) (link A (I.iel k) f / 4) ∧
        x % 4 = link A (I.iel k) f % 4 ∧ ¬ Inner I (x / 4) (x % 4)) := by
    rintro k hk f hf x rfl
    refine ⟨id, fun h0 => ⟨h0, ?_, rfl, ?_⟩⟩
    · have f4 : f < 4 := by rcases hf with rfl | rfl <;> exact lt k hk _ (by decide)
      exact .inl ⟨(H.mesh.adj.ok _ (T k hk).us f f4 h0).1, rfl⟩
    · have f4 : f < 4 := by rcases hf with rfl | rfl <;> exact lt k hk _ (by decide)
      exact in3 _ (H.mesh.adj.ok _ (T k hk).us f f4 h0).1 (fun m hm => H.outside hk hf h0 hm) _
  -- the halves
  have half : ∀ k < I.n, ∀ f, f = I.t k 2 ∨ f = I.t k 3 → ∀ x y, Half I sg A k f x y →
      ∀ z, z = x ∨ z = y → (link A (I.iel k) f = 0 → z = 0) ∧
      (link A (I.iel k) f ≠ 0 → z ≠ 0 ∧ Org I used (z / 4) (link A (I.iel k) f / 4) ∧
        z % 4 = link A (I.iel k) f % 4 ∧ ¬ Inner I (z / 4) (z % 4)) := by
    intro k hk f hf x y hH z hz
    refine ⟨fun h0 => ?_, fun h0 => ?_⟩
    · have := hH.1 h0
      rcases hz with rfl | rfl <;> [exact this.1; exact this.2]
    · obtain ⟨m, hm, em, _, hf', _, _⟩ := H.thr hk hf h0
      have r4 : link A (I.iel k) f % 4 < 4 := Nat.mod_lt _ (by decide)
      have hzz : z = link A (I.iel k) f ∨ z = 4 * I.new m + link A (I.iel k) f % 4 := by
        obtain ⟨h1, h2⟩ := hH.2 m hm em
        by_cases hs : sg k = sg m
        · rcases hz with rfl | rfl <;> [exact .inl (h1 hs).1; exact .inr (h1 hs).2]
        · rcases hz with rfl | rfl <;> [exact .inr (h2 hs).1; exact .inl (h2 hs).2]
      have g0 : link A (I.iel k) f % 4 ≠ I.t m 0 := by
        rcases hf' with h | h <;> rw [h] <;> exact b m hm _ (by decide) _ (by decide) (by decide)
      have g1 : link A (I.iel k) f % 4 ≠ I.t m 1 := by
        rcases hf' with h | h <;> rw [h] <;> exact b m hm _ (by decide) _ (by decide) (by decide)
      rcases hzz with rfl | rfl
      · refine ⟨h0, .inl ⟨em ▸ (T m hm).us, rfl⟩, rfl, ?_⟩
        rw [em]
        exact fun h => g0 (in1 m hm _ h)
      · rw [(aux _ _ r4).1, (aux _ _ r4).2]
        have := H.fresh.pos m hm
        exact ⟨by omega, .inr ⟨m, hm, rfl, em⟩, rfl, fun h => g1 (in2 m hm _ h)⟩
  rcases ho with ⟨hu, rfl⟩ | ⟨k, hk, rfl, rfl⟩
  · by_cases hs : ∃ k < I.n, p = I.iel k
    · obtain ⟨k, hk, rfl⟩ := hs
      obtain ⟨d1, d2, d3, d4, d5⟩ := hA.done k hk
      constructor
      · intro hin
        have := in1 k hk f hin
        subst this
        exact ⟨I.new k, I.t k 1, d1, lt k hk 1 (by decide), H.fresh.pos k hk, .inr ⟨k, hk, rfl, rfl⟩,
          ⟨k, hk, .inr ⟨rfl, rfl⟩⟩⟩
      · intro hno
        rcases Perm4.cases (T k hk).perm hf with h | h | h | h
        · exact absurd ⟨k, hk, .inl ⟨rfl, h⟩⟩ hno
        · have := outer k hk f (.inr h) (link A' (I.iel k) f) (by rw [h]; exact d3)
          exact ⟨fun h0 => by rw [h, d3, ← h, h0], this.2⟩
        · exact half k hk f (.inl h) _ _ (d5 f (.inl h)) _ (.inl rfl)
        · exact half k hk f (.inr h) _ _ (d5 f (.inr h)) _ (.inl rfl)
    · have hs' : ∀ k < I.n, p ≠ I.iel k := fun k hk h => hs ⟨k, hk, h⟩
      obtain ⟨r1, r2⟩ := hA.rest p hu hs' f hf
      refine ⟨fun h => absurd h (in3 p hu hs' f), fun _ => ?_⟩
      by_cases hk : ∃ k < I.n, link A p f = 4 * I.iel k + I.t k 0
      · obtain ⟨k, hk, h⟩ := hk
        have l0 := lt k hk 0 (by decide)
        have p1 := H.iel_pos hk
        have p2 := H.fresh.pos k hk
        rw [r1 k hk h, h, (aux _ _ l0).1, (aux _ _ l0).2, (aux _ _ l0).1, (aux _ _ l0).2]
        exact ⟨fun h => by omega, fun _ => ⟨by omega, .inr ⟨k, hk, rfl, rfl⟩, rfl, fun h =>
          b k hk 0 (by decide) 1 (by decide) (by decide) (in2 k hk _ h)⟩⟩
      · have hk' : ∀ k < I.n, link A p f ≠ 4 * I.iel k + I.t k 0 := fun k h h' => hk ⟨k, h, h'⟩
        rw [r2 hk']
        refine ⟨id, fun h0 => ?_⟩
        have hu' := (H.mesh.adj.ok p hu f hf h0).1
        refine ⟨h0, .inl ⟨hu', rfl⟩, rfl, ?_⟩
        rintro ⟨m, hm, ⟨h1, h2⟩ | ⟨h1, h2⟩⟩
        · exact hk' m hm (by omega)
        · exact H.fresh.free m hm (h1 ▸ hu')
  · obtain ⟨d1, d2, d3, d4, d5⟩ := hA.done k hk
    constructor
    · intro hin
      have := in2 k hk f hin
      subst this
      exact ⟨I.iel k, I.t k 0, d2, lt k hk 0 (by decide), H.iel_pos hk, .inl ⟨(T k hk).us, rfl⟩,
        ⟨k, hk, .inl ⟨rfl, rfl⟩⟩⟩
    · intro hno
      rcases Perm4.cases (T k hk).perm hf with h | h | h | h
      · have := outer k hk f (.inl h) (link A' (I.new k) f) (by rw [h]; exact d4)
        exact ⟨fun h0 => by rw [h, d4, ← h, h0], this.2⟩
      · exact absurd ⟨k, hk, .inr ⟨rfl, h⟩⟩ hno
      · exact half k hk f (.inl h) _ _ (d5 f (.inl h)) _ (.inr rfl)
      · exact half k hk f (.inr h) _ _ (d5 f (.inr h)) _ (.inr rfl)

/-! ### Boundary data -/

/-- The state as seen by the face data of `Colver`. -/
def proj (s : State) : Colver.St where
  A := s.A
  V := s.V
  xt := s.xt
  R := fun r => ⟨(s.X r).ref, (s.X r).ftag, (s.X r).ori⟩
  top := s.nxt

theorem isxt_false {x : XT} (h : x.isxt = false) {f : Nat} (hf : f < 4) : x.ref f = 0 ∧ x.ftag f = 0 := by
  unfold XT.isxt at h
  rw [List.any_eq_false] at h
  have := h f (List.mem_range.2 hf)
  simpa using this

theorem isxt_true {x : XT} {f : Nat} (hf : f < 4) (h : x.ref f ≠ 0 ∨ x.ftag f ≠ 0) : x.isxt = true := by
  unfold XT.isxt
  rw [List.any_eq_true]
  exact ⟨f, List.mem_range.2 hf, by simpa using h⟩

/-- Face data of a part. -/
theorem Child.fd {s0 s : State} {e p : Nat} {x : XT} (h : Child s e (s0.xt p ≠ 0) x) {f : Nat} (hf : f < 4)
    {r : Int} {t : Nat} (hx : s0.xt p ≠ 0 → x.ref f = r ∧ x.ftag f = t) (h0 : s0.xt p = 0 → r = 0 ∧ t = 0) :
    Colver.fd (proj s) e f = (r, t) ∧
      (r ≠ 0 ∨ t ≠ 0 → Colver.ori (proj s) e f = x.ori f) := by
  obtain ⟨h1, h2⟩ := h
  by_cases hp : s0.xt p = 0
  · obtain ⟨rfl, rfl⟩ := h0 hp
    have : s.xt e = 0 := by
      by_contra hc
      exact (h1.1 hc).1 hp
    refine ⟨?_, fun h => by simp at h⟩
    simp [Colver.fd, proj, this]
  · obtain ⟨rfl, rfl⟩ := hx hp
    by_cases hi : x.isxt = true
    · have hne := h1.2 ⟨hp, hi⟩
      have e2 := h2 hne
      refine ⟨?_, fun _ => ?_⟩
      · simp only [Colver.fd, proj, if_neg hne, e2]
      · simp only [Colver.ori, proj, e2]
    · have he : s.xt e = 0 := by
        by_contra hc
        exact hi (h1.1 hc).2
      obtain ⟨z1, z2⟩ := isxt_false (by simpa using hi) hf
      refine ⟨?_, fun h => by simp [z1, z2] at h⟩
      simp [Colver.fd, proj, he, z1, z2]

/-- Face data after the split: nothing on a face between two parts, the data of the face before otherwise. -/
theorem Pre.face_data (H : Pre I A V used na nb) {s0 s : State} (hX : InvX I s0 used I.n s) {e p f : Nat}
    (ho : Org I used e p) (hf : f < 4) :
    (Inner I e f → Colver.fd (proj s) e f = (0, 0)) ∧
    (¬ Inner I e f → Colver.fd (proj s) e f = Colver.fd (proj s0) p f ∧
      (Colver.fd (proj s0) p f ≠ (0, 0) → Colver.ori (proj s) e f = Colver.ori (proj s0) p f)) := by
  have nz : ∀ (r : Int) (t : Nat), (r, t) ≠ ((0, 0) : Int × Nat) → r ≠ 0 ∨ t ≠ 0 := by
    intro r t h
    by_contra hc
    push Not at hc
    exact h (by rw [hc.1, hc.2])
  rcases ho with ⟨hu, rfl⟩ | ⟨k, hk, rfl, rfl⟩
  · by_cases hs : ∃ k < I.n, p = I.iel k
    · obtain ⟨k, hk, rfl⟩ := hs
      have hc := (hX.done k hk).1
      constructor
      · rintro ⟨m, hm, ⟨h, rfl⟩ | ⟨h, rfl⟩⟩
        · have := H.round.inj _ hk _ hm h
          subst this
          exact (hc.fd hf (fun _ => by simp [part0, upd]) (fun _ => ⟨rfl, rfl⟩)).1
        · exact absurd h (H.iel_new hk hm)
      · intro hno
        have f0 : f ≠ I.t k 0 := fun h => hno ⟨k, hk, .inl ⟨rfl, h⟩⟩
        have := hc.fd (r := (Colver.fd (proj s0) (I.iel k) f).1) (t := (Colver.fd (proj s0) (I.iel k) f).2) hf
          (fun h => by simp [part0, upd, f0, Colver.fd, proj, h]) (fun h => by simp [Colver.fd, proj, h])
        refine ⟨this.1, fun h => ?_⟩
        rw [this.2 (nz _ _ h)]
        simp [part0, upd, f0, Colver.ori, proj]
    · have hs' : ∀ k < I.n, p ≠ I.iel k := fun k hk h => hs ⟨k, hk, h⟩
      obtain ⟨o1, o2⟩ := hX.old p hu hs'
      constructor
      · rintro ⟨m, hm, ⟨h, _⟩ | ⟨h, _⟩⟩
        · exact absurd h (hs' m hm)
        · exact absurd (h ▸ hu) (H.fresh.free m hm)
      · intro _
        rw [o1] at o2
        have hfd : Colver.fd (proj s) p f = Colver.fd (proj s0) p f := by
          show (if s.xt p = 0 then ((0, 0) : Int × Nat) else ((s.X (s.xt p)).ref f, (s.X (s.xt p)).ftag f)) =
            if s0.xt p = 0 then ((0, 0) : Int × Nat) else ((s0.X (s0.xt p)).ref f, (s0.X (s0.xt p)).ftag f)
          simp only [o1, o2]
        have hor : Colver.ori (proj s) p f = Colver.ori (proj s0) p f := by
          show (s.X (s.xt p)).ori f = (s0.X (s0.xt p)).ori f
          rw [o1, o2]
        exact ⟨hfd, fun _ => hor⟩
  · have hc := (hX.done k hk).2
    constructor
    · rintro ⟨m, hm, ⟨h, rfl⟩ | ⟨h, rfl⟩⟩
      · exact absurd h.symm (H.iel_new hm hk)
      · have := H.fresh.inj _ hk _ hm h
        subst this
        exact (hc.fd hf (fun _ => by simp [part1, upd]) (fun _ => ⟨rfl, rfl⟩)).1
    · intro hno
      have f1 : f ≠ I.t k 1 := fun h => hno ⟨k, hk, .inr ⟨rfl, h⟩⟩
      have := hc.fd (r := (Colver.fd (proj s0) (I.iel k) f).1) (t := (Colver.fd (proj s0) (I.iel k) f).2) hf
        (fun h => by simp [part1, upd, f1, Colver.fd, proj, h]) (fun h => by simp [Colver.fd, proj, h])
      refine ⟨this.1, fun h => ?_⟩
      rw [this.2 (nz _ _ h)]
      simp [part1, upd, f1, Colver.ori, proj]

/-- The boundary data stays right. -/
theorem Pre.faceOK (H : Pre I A V used na nb) {sg : Nat → Bool} {s0 s : State} (h0A : s0.A = A)
    (hA : InvA I sg A used I.n s.A) (hX : InvX I s0 used I.n s) {tref tref' : Nat → Int}
    (ht : ∀ e p, Org I used e p → tref' e = tref p) (hfc : Colver.FaceOK tref used (proj s0)) :
    Colver.FaceOK tref' (After I used) (proj s) := by
  have bdy0 : ¬ Colver.bdy 0 = true := by decide
  have aux : ∀ p q, q < 4 → (4 * p + q) / 4 = p ∧ (4 * p + q) % 4 = q := fun p q hq => by omega
  constructor
  · intro e he f hf
    obtain ⟨p, ho⟩ := he.org
    obtain ⟨d1, d2⟩ := H.face_data hX ho hf
    by_cases hin : Inner I e f
    · rw [d1 hin]
    · rw [(d2 hin).1]; exact hfc.nonneg p (H.org_used ho) f hf
  · intro e he f hf h0
    change link s.A e f ≠ 0 at h0
    change Colver.fd (proj s) (link s.A e f / 4) (link s.A e f % 4) = _
    obtain ⟨p, ho⟩ := he.org
    obtain ⟨d1, d2⟩ := H.face_data hX ho hf
    obtain ⟨l1, l2⟩ := H.links hA ho hf
    by_cases hin : Inner I e f
    · obtain ⟨e2, f2, hl, hf2, _, ho2, hin2⟩ := l1 hin
      rw [hl, (aux _ _ hf2).1, (aux _ _ hf2).2, d1 hin, (H.face_data hX ho2 hf2).1 hin2]
    · obtain ⟨m1, m2⟩ := l2 hin
      have hp0 : link A p f ≠ 0 := fun h => h0 (m1 h)
      obtain ⟨_, ho2, hmod, hin2⟩ := m2 hp0
      have r4 : link s.A e f % 4 < 4 := Nat.mod_lt _ (by decide)
      rw [((H.face_data hX ho2 r4).2 hin2).1, (d2 hin).1, hmod]
      have := hfc.sides p (H.org_used ho) f hf (by change link s0.A p f ≠ 0; rw [h0A]; exact hp0)
      change Colver.fd (proj s0) (link s0.A p f / 4) (link s0.A p f % 4) = _ at this
      rw [h0A] at this
      exact this
  · intro e he f hf h0
    change link s.A e f = 0 at h0
    obtain ⟨p, ho⟩ := he.org
    obtain ⟨d1, d2⟩ := H.face_data hX ho hf
    obtain ⟨l1, l2⟩ := H.links hA ho hf
    by_cases hin : Inner I e f
    · obtain ⟨e2, f2, hl, hf2, h1, _⟩ := l1 hin
      omega
    · obtain ⟨m1, m2⟩ := l2 hin
      have hp0 : link A p f = 0 := by
        by_contra h
        exact (m2 h).1 h0
      obtain ⟨b1, b2⟩ := hfc.outer p (H.org_used ho) f hf (by change link s0.A p f = 0; rw [h0A]; exact hp0)
      obtain ⟨q1, q2⟩ := d2 hin
      have hne : Colver.fd (proj s0) p f ≠ (0, 0) := fun h => by rw [h] at b1; exact bdy0 b1
      rw [q1, q2 hne]
      exact ⟨b1, b2⟩
  · intro e he f hf h0 hd
    change link s.A e f ≠ 0 at h0
    change tref' e ≠ tref' (link s.A e f / 4) at hd
    obtain ⟨p, ho⟩ := he.org
    obtain ⟨d1, d2⟩ := H.face_data hX ho hf
    obtain ⟨l1, l2⟩ := H.links hA ho hf
    by_cases hin : Inner I e f
    · obtain ⟨e2, f2, hl, hf2, _, ho2, _⟩ := l1 hin
      rw [hl, (aux _ _ hf2).1, ht _ _ ho, ht _ _ ho2] at hd
      exact absurd rfl hd
    · obtain ⟨m1, m2⟩ := l2 hin
      have hp0 : link A p f ≠ 0 := fun h => h0 (m1 h)
      obtain ⟨_, ho2, hmod, hin2⟩ := m2 hp0
      rw [ht _ _ ho, ht _ _ ho2] at hd
      rw [(d2 hin).1]
      exact hfc.diff p (H.org_used ho) f hf (by change link s0.A p f ≠ 0; rw [h0A]; exact hp0)
        (by change _ ≠ tref (link s0.A p f / 4); rw [h0A]; exact hd)
  · intro e he f hf h0
    change link s.A e f ≠ 0 at h0
    change (tref' (link s.A e f / 4) < _ → _) ∧ (_ < tref' (link s.A e f / 4) → _)
    obtain ⟨p, ho⟩ := he.org
    obtain ⟨d1, d2⟩ := H.face_data hX ho hf
    obtain ⟨l1, l2⟩ := H.links hA ho hf
    by_cases hin : Inner I e f
    · obtain ⟨e2, f2, hl, hf2, _, ho2, _⟩ := l1 hin
      rw [hl, (aux _ _ hf2).1, ht _ _ ho, ht _ _ ho2]
      exact ⟨fun h => absurd h (lt_irrefl _), fun h => absurd h (lt_irrefl _)⟩
    · obtain ⟨m1, m2⟩ := l2 hin
      have hp0 : link A p f ≠ 0 := fun h => h0 (m1 h)
      obtain ⟨_, ho2, hmod, hin2⟩ := m2 hp0
      have hl0 : link (proj s0).A p f ≠ 0 := by change link s0.A p f ≠ 0; rw [h0A]; exact hp0
      have o := hfc.ori p (H.org_used ho) f hf hl0
      have dd := hfc.diff p (H.org_used ho) f hf hl0
      change (tref (link s0.A p f / 4) < _ → _) ∧ (_ < tref (link s0.A p f / 4) → _) at o
      change tref p ≠ tref (link s0.A p f / 4) → _ at dd
      rw [h0A] at o dd
      rw [ht _ _ ho, ht _ _ ho2]
      have hne : tref p ≠ tref (link A p f / 4) → Colver.fd (proj s0) p f ≠ (0, 0) := fun h h' => by
        have := dd h
        rw [h'] at this
        exact bdy0 this
      exact ⟨fun h => by rw [(d2 hin).2 (hne h.ne')]; exact o.1 h, fun h => by rw [(d2 hin).2 (hne h.ne)]; exact o.2 h⟩

/-- No twins after the split. -/
theorem Pre.twins_after (H : Pre I A V used na nb) {sg : Nat → Bool} {A' : Nat → Nat} {V' : Nat → List Nat}
    (hA : InvA I sg A used I.n A') (hV : InvV I V I.n V') : Colver.NoTwins A' V' (After I used) := by
  intro e he f hf h0
  obtain ⟨p, ho⟩ := he.org
  obtain ⟨l1, l2⟩ := H.links hA ho hf
  -- opposite vertex: the same as before, or the new one for an outer face of a part
  have lt : ∀ k < I.n, ∀ i < 4, I.t k i < 4 := fun k hk i hi => (H.tet hk).perm.lt i hi
  have b : ∀ k < I.n, ∀ i < 4, ∀ j < 4, i ≠ j → I.t k i ≠ I.t k j := fun k hk i hi j hj hij h =>
    hij ((H.tet hk).perm.inj i hi j hj h)
  have opp : ∀ e p, Org I used e p → ∀ f < 4, (V' e).getD f 0 = (V p).getD f 0 ∨
      (V' e).getD f 0 = I.ip ∧ ∃ k < I.n, p = I.iel k ∧ (f = I.t k 0 ∨ f = I.t k 1) := by
    rintro e p (⟨hu, rfl⟩ | ⟨k, hk, rfl, rfl⟩) f hf
    · by_cases hs : ∃ k < I.n, p = I.iel k
      · obtain ⟨k, hk, rfl⟩ := hs
        rw [(hV.done k hk).1]
        by_cases h : f = I.t k 1
        · subst h
          exact .inr ⟨getD_set_eq (H.tet hk).len hf _, k, hk, rfl, .inr rfl⟩
        · exact .inl (getD_set_ne (Ne.symm h) _)
      · rw [hV.rest p (fun k hk h => hs ⟨k, hk, h⟩) (fun k hk h => H.fresh.free k hk (h ▸ hu))]
        exact .inl rfl
    · rw [(hV.done k hk).2]
      by_cases h : f = I.t k 0
      · subst h
        exact .inr ⟨getD_set_eq (H.tet hk).len hf _, k, hk, rfl, .inl rfl⟩
      · exact .inl (getD_set_ne (Ne.symm h) _)
  have hip : ∀ p, used p → ∀ f < 4, (V p).getD f 0 ≠ I.ip := by
    intro p hp f hf h
    apply H.ip p hp
    rw [← h, List.getD_eq_getElem _ _ (by rw [H.mesh.len p hp]; exact hf)]
    exact List.getElem_mem _
  by_cases hin : Inner I e f
  · obtain ⟨k, hk, ⟨rfl, rfl⟩ | ⟨rfl, rfl⟩⟩ := hin
    · obtain ⟨d1, _⟩ := hA.done k hk
      have l := lt k hk 1 (by decide)
      have l' := lt k hk 0 (by decide)
      have hb := b k hk 0 (by decide) 1 (by decide) (by decide)
      rw [d1, show (4 * I.new k + I.t k 1) / 4 = I.new k by omega, show (4 * I.new k + I.t k 1) % 4 = I.t k 1 by omega,
        (hV.done k hk).1, (hV.done k hk).2, getD_set_ne hb, getD_set_ne hb.symm]
      exact fun h => hb (getD_inj (H.tet hk).len (H.tet hk).nd l l' h).symm
    · obtain ⟨_, d2, _⟩ := hA.done k hk
      have l := lt k hk 1 (by decide)
      have l' := lt k hk 0 (by decide)
      have hb := b k hk 0 (by decide) 1 (by decide) (by decide)
      rw [d2, show (4 * I.iel k + I.t k 0) / 4 = I.iel k by omega, show (4 * I.iel k + I.t k 0) % 4 = I.t k 0 by omega,
        (hV.done k hk).1, (hV.done k hk).2, getD_set_ne hb, getD_set_ne hb.symm]
      exact fun h => hb (getD_inj (H.tet hk).len (H.tet hk).nd l' l h)
  · obtain ⟨m1, m2⟩ := l2 hin
    have hp0 : link A p f ≠ 0 := fun h => h0 (m1 h)
    obtain ⟨_, ho2, hmod, hin2⟩ := m2 hp0
    have hpu := H.org_used ho
    have r4 : link A p f % 4 < 4 := Nat.mod_lt _ (by decide)
    have hu2 := (H.mesh.adj.ok p hpu f hf hp0).1
    have htw := H.twins p hpu f hf hp0
    rw [hmod]
    rcases opp e p ho f hf with h1 | ⟨h1, k, hk, hpk, hfk⟩ <;>
      rcases opp _ _ ho2 _ r4 with h2 | ⟨h2, m, hm, hpm, hfm⟩
    · rw [h1, h2]; exact htw
    · rw [h1, h2]; exact (hip p hpu f hf).symm
    · rw [h1, h2]; exact hip _ hu2 _ r4
    · exfalso
      subst hpk
      exact H.outside hk hfk hp0 hm hpm

end Mmg.Spl1b
