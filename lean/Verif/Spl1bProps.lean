/-
  C85. Splitting an edge with all the tetrahedra around it (`MMG5_split1b`) keeps a valid mesh: adjacency, boundary data,
  tags of the edges, volumes; no overlap; for any sequence of such splits and of the other operations.
-/
import Verif.Spl1bFaces
import Verif.Overlap

namespace Mmg.Spl1b

open Mmg.Split3 Mmg.Swap23 Mmg.Shell

/-! ### Topology and boundary data -/

section

variable {I : In} {used : Nat → Prop} {na nb : Nat} {s s' : State} {room : Nat → Bool}

theorem Pre.all (H : Pre I s.A s.V used na nb) (h : split1b I room s = some s') :
    InvA I (I.sg s.V) s.A used I.n s'.A ∧ InvV I s.V I.n s'.V := by
  obtain ⟨c1, c2, _⟩ := H.create rfl rfl
  exact H.run_AV c1 c2 I.n le_rfl s' h

theorem Pre.allX (H : Pre I s.A s.V used na nb) (hsl : Colver.Slots used (proj s)) (h : split1b I room s = some s') :
    InvX I s used I.n s' := by
  obtain ⟨c1, c2, c3, c4, c5, c6⟩ := H.create rfl rfl
  have xo : ∀ e, used e → (Spl1b.create I s).xt e = s.xt e := fun e he =>
    c6 e (fun k hk h => H.fresh.free k hk (h ▸ he))
  have no : ∀ e, (used e ∨ ∃ k < 0, e = I.new k) → used e := fun e h => h.resolve_right (fun ⟨k, hk, _⟩ => by omega)
  refine H.run_X (s0 := s) (s := Spl1b.create I s) ⟨?_, ?_, ?_, ?_, ?_, ?_⟩ I.n le_rfl s' h
  · intro e e' he he' h0 heq
    rw [xo e (no e he)] at h0 heq
    rw [xo e' (no e' he')] at heq
    exact hsl.1 e e' (no e he) (no e' he') h0 heq
  · intro e he
    rw [xo e (no e he), c4]
    exact hsl.2 e (no e he)
  · rw [c4]
  · intro e he _
    rw [xo e he, c3]
    exact ⟨rfl, rfl⟩
  · intro k _ hk
    exact c5 k hk
  · intro k hk
    omega

/-- **C85.** Every tetrahedron around the edge is cut in two: one of the two has the new vertex instead of one end, the
other one instead of the other end; the other tetrahedra are untouched.  The adjacency of the result is symmetric and
joins equal faces, and no two neighbours are the same tetrahedron. -/
theorem C85_mesh (H : Pre I s.A s.V used na nb) (h : split1b I room s = some s') :
    Mesh s'.A s'.V (After I used) ∧ Colver.NoTwins s'.A s'.V (After I used) ∧
    (∀ k < I.n, ∃ i j, i < 4 ∧ j < 4 ∧ (s.V (I.iel k)).getD i 0 = na ∧ (s.V (I.iel k)).getD j 0 = nb ∧
      (s'.V (I.iel k) = (s.V (I.iel k)).set i I.ip ∧ s'.V (I.new k) = (s.V (I.iel k)).set j I.ip ∨
        s'.V (I.iel k) = (s.V (I.iel k)).set j I.ip ∧ s'.V (I.new k) = (s.V (I.iel k)).set i I.ip)) ∧
    ∀ e, used e → (∀ k < I.n, e ≠ I.iel k) → s'.V e = s.V e := by
  obtain ⟨hA, hV⟩ := H.all h
  refine ⟨H.mesh_after hA hV, H.twins_after hA hV, ?_, ?_⟩
  · intro k hk
    obtain ⟨v1, v2⟩ := hV.done k hk
    have T := H.tet hk
    have l0 := T.perm.lt 0 (by decide)
    have l1 := T.perm.lt 1 (by decide)
    rcases T.ends with ⟨e0, e1⟩ | ⟨e0, e1⟩
    · exact ⟨_, _, l0, l1, e0, e1, .inr ⟨v1, v2⟩⟩
    · exact ⟨_, _, l1, l0, e1, e0, .inl ⟨v1, v2⟩⟩
  · intro e he hn
    exact hV.rest e hn (fun k hk h => H.fresh.free k hk (h ▸ he))

/-- **C85.** The assertions in the function hold: the only failure is the refusal of memory for a boundary record. -/
theorem C85_succeeds (H : Pre I s.A s.V used na nb) (hr : ∀ k, room k = true) : (split1b I room s).isSome := by
  obtain ⟨c1, c2, _⟩ := H.create rfl rfl
  exact H.run_some hr c1 c2 I.n le_rfl

/-- **C85.** The boundary data stays right (both sides of a face agree, faces without neighbour and faces between
different references are boundary faces with the right orientation), and no two tetrahedra share a record. The parts of a
tetrahedron have its reference. -/
theorem C85_boundary (H : Pre I s.A s.V used na nb) (hsl : Colver.Slots used (proj s)) {tref tref' : Nat → Int}
    (ht : (∀ e, used e → tref' e = tref e) ∧ ∀ k < I.n, tref' (I.new k) = tref (I.iel k))
    (hfc : Colver.FaceOK tref used (proj s)) (h : split1b I room s = some s') :
    Colver.FaceOK tref' (After I used) (proj s') ∧ Colver.Slots (After I used) (proj s') := by
  have hA := (H.all h).1
  have hX := H.allX hsl h
  refine ⟨H.faceOK rfl hA hX ?_ hfc, hX.slots, hX.le⟩
  rintro e p (⟨hu, rfl⟩ | ⟨k, hk, rfl, rfl⟩)
  · exact ht.1 p hu
  · exact ht.2 k hk

/-- **C85.** Every face keeps its reference and tags: a face of a part that is, or is in, a face of the tetrahedron has
the data of that face; there is nothing on the face between the two parts; the tetrahedra that are not around the edge
keep their data. -/
theorem C85_faces (H : Pre I s.A s.V used na nb) (hsl : Colver.Slots used (proj s)) (h : split1b I room s = some s') :
    (∀ k < I.n, ∀ e, e = I.iel k ∨ e = I.new k → ∀ f < 4,
      (na ∈ faceTri 0 (s'.V e) f ∨ nb ∈ faceTri 0 (s'.V e) f ∨ I.ip ∉ faceTri 0 (s'.V e) f →
        Colver.fd (proj s') e f = Colver.fd (proj s) (I.iel k) f) ∧
      (na ∉ faceTri 0 (s'.V e) f → nb ∉ faceTri 0 (s'.V e) f → I.ip ∈ faceTri 0 (s'.V e) f →
        Colver.fd (proj s') e f = (0, 0))) ∧
    ∀ e, used e → (∀ k < I.n, e ≠ I.iel k) → ∀ f < 4, Colver.fd (proj s') e f = Colver.fd (proj s) e f := by
  have hV := (H.all h).2
  have hX := H.allX hsl h
  constructor
  · intro k hk e he f hf
    have T := H.tet hk
    have l0 := T.perm.lt 0 (by decide)
    have l1 := T.perm.lt 1 (by decide)
    have b01 : I.t k 0 ≠ I.t k 1 := fun e => absurd (T.perm.inj 0 (by decide) 1 (by decide) e) (by decide)
    have ho : Org I used e (I.iel k) := by
      rcases he with rfl | rfl
      · exact .inl ⟨T.us, rfl⟩
      · exact .inr ⟨k, hk, rfl, rfl⟩
    have hip := H.ip _ T.us
    have nip : ∀ i < 4, (s.V (I.iel k)).getD i 0 ≠ I.ip := by
      intro i hi hc
      rw [List.getD_eq_getElem _ _ (by rw [T.len]; exact hi)] at hc
      exact hip (hc ▸ List.getElem_mem _)
    obtain ⟨d1, d2⟩ := H.face_data hX ho hf
    -- the inner face is the one without the ends
    have key : ∀ i j, i < 4 → j < 4 → i ≠ j → ((s.V (I.iel k)).getD i 0 = na ∧ (s.V (I.iel k)).getD j 0 = nb ∨
        (s.V (I.iel k)).getD i 0 = nb ∧ (s.V (I.iel k)).getD j 0 = na) →
        ((na ∈ faceTri 0 ((s.V (I.iel k)).set j I.ip) f ∨ nb ∈ faceTri 0 ((s.V (I.iel k)).set j I.ip) f ∨
          I.ip ∉ faceTri 0 ((s.V (I.iel k)).set j I.ip) f) ↔ f ≠ i) := by
      intro i j hi hj hij he
      have lset : ((s.V (I.iel k)).set j I.ip).length = 4 := by rw [List.length_set]; exact T.len
      constructor
      · rintro h rfl
        have hmem : ∀ a, a ∈ faceTri 0 ((s.V (I.iel k)).set j I.ip) f → a = I.ip ∨ ∃ m < 4, m ≠ f ∧ m ≠ j ∧
            a = (s.V (I.iel k)).getD m 0 := by
          intro a ha
          rw [mem_faceTri hi] at ha
          obtain ⟨m, hm, hmf, rfl⟩ := ha
          by_cases hmj : m = j
          · subst hmj; exact .inl (getD_set_eq T.len hm _)
          · exact .inr ⟨m, hm, hmf, hmj, getD_set_ne (Ne.symm hmj) _⟩
        have ends : ∀ a, a = na ∨ a = nb → a ∉ faceTri 0 ((s.V (I.iel k)).set j I.ip) f := by
          intro a ha hin
          have ha' : a = (s.V (I.iel k)).getD f 0 ∨ a = (s.V (I.iel k)).getD j 0 := by
            rw [or_comm] at ha
            rcases he with ⟨h1, h2⟩ | ⟨h1, h2⟩ <;> rw [h1, h2] <;> tauto
          rcases hmem a hin with h1 | ⟨m, hm, hmf, hmj, h1⟩
          · rcases ha' with h2 | h2
            · exact nip f hi (h2.symm.trans h1)
            · exact nip j hj (h2.symm.trans h1)
          · rcases ha' with h2 | h2
            · exact hmf (getD_inj T.len T.nd hm hi (h1.symm.trans h2))
            · exact hmj (getD_inj T.len T.nd hm hj (h1.symm.trans h2))
        rcases h with h | h | h
        · exact ends na (.inl rfl) h
        · exact ends nb (.inr rfl) h
        · refine h ((mem_faceTri hi).2 ⟨j, hj, hij.symm, ?_⟩)
          exact (getD_set_eq T.len hj _).symm
      · intro hfi
        have : (s.V (I.iel k)).getD i 0 ∈ faceTri 0 ((s.V (I.iel k)).set j I.ip) f := by
          rw [mem_faceTri hf]
          exact ⟨i, hi, Ne.symm hfi, (getD_set_ne hij.symm _).symm⟩
        rcases he with ⟨h1, _⟩ | ⟨h1, _⟩ <;> rw [h1] at this
        · exact .inl this
        · exact .inr (.inl this)
    have inn : Inner I e f ↔ ¬ (na ∈ faceTri 0 (s'.V e) f ∨ nb ∈ faceTri 0 (s'.V e) f ∨
        I.ip ∉ faceTri 0 (s'.V e) f) := by
      rcases he with rfl | rfl
      · rw [(hV.done k hk).1, key _ _ l0 l1 b01 T.ends, not_not]
        constructor
        · rintro ⟨m, hm, ⟨h, rfl⟩ | ⟨h, rfl⟩⟩
          · rw [H.round.inj _ hk _ hm h]
          · exact absurd h (H.iel_new hk hm)
        · intro h; exact ⟨k, hk, .inl ⟨rfl, h⟩⟩
      · rw [(hV.done k hk).2, key _ _ l1 l0 b01.symm (T.ends.symm.imp And.symm And.symm), not_not]
        constructor
        · rintro ⟨m, hm, ⟨h, rfl⟩ | ⟨h, rfl⟩⟩
          · exact absurd h.symm (H.iel_new hm hk)
          · rw [H.fresh.inj _ hk _ hm h]
        · intro h; exact ⟨k, hk, .inr ⟨rfl, h⟩⟩
    refine ⟨fun hc => (d2 (fun hi => inn.1 hi hc)).1, fun h1 h2 h3 => d1 (inn.2 ?_)⟩
    rintro (h | h | h)
    · exact h1 h
    · exact h2 h
    · exact h h3
  · intro e he hn f hf
    refine ((H.face_data hX (.inl ⟨he, rfl⟩) hf).2 ?_).1
    rintro ⟨m, hm, ⟨h, _⟩ | ⟨h, _⟩⟩
    · exact hn m hm h
    · exact H.fresh.free m hm (h ▸ he)

theorem u_ends {e : Nat} (h : e < 6) (v : List Nat) : ∀ g < 6,
    ends v ((cfg1 (2 ^ e)).E g) = (v.getD ((cfg1 (2 ^ e)).L (iare.getD g (0, 0)).1) 0,
      v.getD ((cfg1 (2 ^ e)).L (iare.getD g (0, 0)).2) 0) ∨
    ends v ((cfg1 (2 ^ e)).E g) = (v.getD ((cfg1 (2 ^ e)).L (iare.getD g (0, 0)).2) 0,
      v.getD ((cfg1 (2 ^ e)).L (iare.getD g (0, 0)).1) 0) := by
  intro g hg
  interval_cases e <;> interval_cases g <;> first | exact .inl rfl | exact .inr rfl

theorem u_perm {e : Nat} (h : e < 6) :
    (∀ g < 6, ∃ g' < 6, g = (cfg1 (2 ^ e)).E g') ∧
    ∀ g < 6, ∀ g' < 6, (cfg1 (2 ^ e)).E g = (cfg1 (2 ^ e)).E g' → g = g' := by
  interval_cases e <;> exact ⟨by decide, by decide⟩

/-- **C85.** Edge data of a part that has a boundary record: the two halves of the edge and the edges that existed keep
tags and reference; the edge from the new vertex to a vertex `w` of a face through the edge gets the tags of this face but
the mark of reference edges, and reference 0. -/
theorem C85_edges (H : Pre I s.A s.V used na nb) (hsl : Colver.Slots used (proj s)) (h : split1b I room s = some s')
    {k : Nat} (hk : k < I.n) {e : Nat} (he : e = I.iel k ∨ e = I.new k) (hx : s'.xt e ≠ 0) {g : Nat} (hg : g < 6)
    {a b : Nat} (hab : ends (s'.V e) g = (a, b) ∨ ends (s'.V e) g = (b, a)) :
    s.xt (I.iel k) ≠ 0 ∧
    (a ≠ I.ip ∧ b ≠ I.ip ∨ a = I.ip ∧ (b = na ∨ b = nb) →
      (s'.X (s'.xt e)).tag g = (s.X (s.xt (I.iel k))).tag g ∧
      (s'.X (s'.xt e)).edg g = (s.X (s.xt (I.iel k))).edg g) ∧
    (a = I.ip → b ≠ na → b ≠ nb → ∀ f, Thru (s.V (I.iel k)) na nb f → b ∈ faceTri 0 (s.V (I.iel k)) f →
      (s'.X (s'.xt e)).tag g = clr ((s.X (s.xt (I.iel k))).ftag f) 1 ∧ (s'.X (s'.xt e)).edg g = 0) := by
  have hV := (H.all h).2
  have hX := H.allX hsl h
  have T := H.tet hk
  have h6 := (H.round.edge k hk).1
  obtain ⟨g', hg', hgu⟩ := (u_perm h6).1 g hg
  change g = I.u k g' at hgu
  have uinj : ∀ x < 6, ∀ y < 6, I.u k x = I.u k y → x = y := (u_perm h6).2
  have hip := H.ip _ T.us
  have nip : ∀ i < 4, (s.V (I.iel k)).getD i 0 ≠ I.ip := by
    intro i hi hc
    rw [List.getD_eq_getElem _ _ (by rw [T.len]; exact hi)] at hc
    exact hip (hc ▸ List.getElem_mem _)
  have vinj : ∀ i < 4, ∀ j < 4, i ≠ j → (s.V (I.iel k)).getD (I.t k i) 0 ≠ (s.V (I.iel k)).getD (I.t k j) 0 :=
    fun i hi j hj hij hc => hij (T.perm.inj i hi j hj (getD_inj T.len T.nd (T.perm.lt i hi) (T.perm.lt j hj) hc))
  have tinj : ∀ i < 4, ∀ j < 4, i ≠ j → I.t k i ≠ I.t k j := fun i hi j hj hij hc => hij (T.perm.inj i hi j hj hc)
  have lt : ∀ i < 4, I.t k i < 4 := T.perm.lt
  -- ends in terms of the numbering of the part
  have hue : ∀ v : List Nat, ends v g = (v.getD (I.t k (iare.getD g' (0, 0)).1) 0,
      v.getD (I.t k (iare.getD g' (0, 0)).2) 0) ∨ ends v g = (v.getD (I.t k (iare.getD g' (0, 0)).2) 0,
      v.getD (I.t k (iare.getD g' (0, 0)).1) 0) := fun v => by rw [hgu]; exact u_ends h6 v g' hg'
  have hab' : ∀ i j, (iare.getD g' (0, 0)) = (i, j) →
      a = (s'.V e).getD (I.t k i) 0 ∧ b = (s'.V e).getD (I.t k j) 0 ∨
      a = (s'.V e).getD (I.t k j) 0 ∧ b = (s'.V e).getD (I.t k i) 0 := by
    intro i j hij
    have := hue (s'.V e)
    rw [hij] at this
    rcases this with h1 | h1 <;> rcases hab with h2 | h2 <;> rw [h1] at h2 <;> cases h2 <;> simp
  -- faces through the edge
  have hface : ∀ f, Thru (s.V (I.iel k)) na nb f → ∀ i, i = 2 ∨ i = 3 →
      (s.V (I.iel k)).getD (I.t k i) 0 ∈ faceTri 0 (s.V (I.iel k)) f → f = I.t k (5 - i) := by
    intro f hf i hi hm
    have c := (T.thru f hf.1).1 hf
    have i4 : i < 4 := by omega
    have : f ≠ I.t k i := by
      rintro rfl
      rw [mem_faceTri (lt i i4)] at hm
      obtain ⟨m, hm4, hne, he⟩ := hm
      exact hne (getD_inj T.len T.nd hm4 (lt i i4) he.symm)
    rcases hi with rfl | rfl
    · exact c.resolve_left this
    · exact c.resolve_right this
  have hna : na = (s.V (I.iel k)).getD (I.t k 0) 0 ∧ nb = (s.V (I.iel k)).getD (I.t k 1) 0 ∨
      nb = (s.V (I.iel k)).getD (I.t k 0) 0 ∧ na = (s.V (I.iel k)).getD (I.t k 1) 0 :=
    T.ends.imp (fun h => ⟨h.1.symm, h.2.symm⟩) (fun h => ⟨h.1.symm, h.2.symm⟩)
  obtain ⟨c0, c1⟩ := hX.done k hk
  have n01 := vinj 0 (by decide) 1 (by decide) (by decide)
  have n02 := vinj 0 (by decide) 2 (by decide) (by decide)
  have n03 := vinj 0 (by decide) 3 (by decide) (by decide)
  have n12 := vinj 1 (by decide) 2 (by decide) (by decide)
  have n13 := vinj 1 (by decide) 3 (by decide) (by decide)
  have i0 := nip _ (lt 0 (by decide))
  have i1 := nip _ (lt 1 (by decide))
  have i2 := nip _ (lt 2 (by decide))
  have i3 := nip _ (lt 3 (by decide))
  have u34 : I.u k 3 ≠ I.u k 4 := fun h => absurd (uinj 3 (by decide) 4 (by decide) h) (by decide)
  have u12 : I.u k 1 ≠ I.u k 2 := fun h => absurd (uinj 1 (by decide) 2 (by decide) h) (by decide)
  rcases he with rfl | rfl
  · obtain ⟨q1, q2⟩ := c0
    refine ⟨(q1.1 hx).1, ?_⟩
    rw [q2 hx]
    have w1 : (s'.V (I.iel k)).getD (I.t k 1) 0 = I.ip := by
      rw [(hV.done k hk).1]; exact getD_set_eq T.len (lt 1 (by decide)) _
    have wo : ∀ i < 4, i ≠ 1 → (s'.V (I.iel k)).getD (I.t k i) 0 = (s.V (I.iel k)).getD (I.t k i) 0 := by
      intro i hi h1
      rw [(hV.done k hk).1]; exact getD_set_ne (tinj 1 (by decide) i hi (Ne.symm h1)) _
    have w0 := wo 0 (by decide) (by decide)
    have w2 := wo 2 (by decide) (by decide)
    have w3 := wo 3 (by decide) (by decide)
    have keep : g' ≠ 3 → g' ≠ 4 →
        (part0 (I.t k) (I.u k) (s.X (s.xt (I.iel k)))).tag g = (s.X (s.xt (I.iel k))).tag g ∧
        (part0 (I.t k) (I.u k) (s.X (s.xt (I.iel k)))).edg g = (s.X (s.xt (I.iel k))).edg g := by
      intro h3 h4
      have e3 : g ≠ I.u k 3 := fun h => h3 (uinj _ hg' _ (by decide) (hgu.symm.trans h))
      have e4 : g ≠ I.u k 4 := fun h => h4 (uinj _ hg' _ (by decide) (hgu.symm.trans h))
      simp [part0, upd, e3, e4]
    have t3 : (part0 (I.t k) (I.u k) (s.X (s.xt (I.iel k)))).tag (I.u k 3) =
        clr ((s.X (s.xt (I.iel k))).ftag (I.t k 3)) 1 ∧
        (part0 (I.t k) (I.u k) (s.X (s.xt (I.iel k)))).edg (I.u k 3) = 0 := by simp [part0, upd, u34]
    have t4 : (part0 (I.t k) (I.u k) (s.X (s.xt (I.iel k)))).tag (I.u k 4) =
        clr ((s.X (s.xt (I.iel k))).ftag (I.t k 2)) 1 ∧
        (part0 (I.t k) (I.u k) (s.X (s.xt (I.iel k)))).edg (I.u k 4) = 0 := by simp [part0, upd]
    interval_cases g'
    · have := hab' 0 1 rfl
      rw [w0, w1] at this
      refine ⟨fun _ => keep (by decide) (by decide), fun ha h1 h2 => ?_⟩
      exfalso
      rcases this with ⟨r1, r2⟩ | ⟨r1, r2⟩
      · exact i0 (r1.symm.trans ha)
      · rcases hna with ⟨z, _⟩ | ⟨z, _⟩
        · exact h1 (r2.trans z.symm)
        · exact h2 (r2.trans z.symm)
    · have := hab' 0 2 rfl
      rw [w0, w2] at this
      refine ⟨fun _ => keep (by decide) (by decide), fun ha _ _ => ?_⟩
      exfalso
      rcases this with ⟨r1, r2⟩ | ⟨r1, r2⟩
      · exact i0 (r1.symm.trans ha)
      · exact i2 (r1.symm.trans ha)
    · have := hab' 0 3 rfl
      rw [w0, w3] at this
      refine ⟨fun _ => keep (by decide) (by decide), fun ha _ _ => ?_⟩
      exfalso
      rcases this with ⟨r1, r2⟩ | ⟨r1, r2⟩
      · exact i0 (r1.symm.trans ha)
      · exact i3 (r1.symm.trans ha)
    · have := hab' 1 2 rfl
      rw [w1, w2] at this
      subst hgu
      refine ⟨fun hc => ?_, fun ha _ _ f hf hbf => ?_⟩
      · exfalso
        rcases this with ⟨r1, r2⟩ | ⟨r1, r2⟩ <;> subst r1 r2
        · rcases hc with hc | ⟨_, hc⟩
          · exact hc.1 rfl
          · rcases hna with ⟨z1, z2⟩ | ⟨z1, z2⟩ <;> rw [z1, z2] at hc <;> rcases hc with hc | hc
            · exact n02 hc.symm
            · exact n12 hc.symm
            · exact n12 hc.symm
            · exact n02 hc.symm
        · rcases hc with hc | ⟨hc, _⟩
          · exact hc.2 rfl
          · exact i2 hc
      · rcases this with ⟨r1, r2⟩ | ⟨r1, r2⟩
        · subst r2
          rw [hface f hf 2 (.inl rfl) hbf]
          exact t3
        · exact absurd (r1.symm.trans ha) i2
    · have := hab' 1 3 rfl
      rw [w1, w3] at this
      subst hgu
      refine ⟨fun hc => ?_, fun ha _ _ f hf hbf => ?_⟩
      · exfalso
        rcases this with ⟨r1, r2⟩ | ⟨r1, r2⟩ <;> subst r1 r2
        · rcases hc with hc | ⟨_, hc⟩
          · exact hc.1 rfl
          · rcases hna with ⟨z1, z2⟩ | ⟨z1, z2⟩ <;> rw [z1, z2] at hc <;> rcases hc with hc | hc
            · exact n03 hc.symm
            · exact n13 hc.symm
            · exact n13 hc.symm
            · exact n03 hc.symm
        · rcases hc with hc | ⟨hc, _⟩
          · exact hc.2 rfl
          · exact i3 hc
      · rcases this with ⟨r1, r2⟩ | ⟨r1, r2⟩
        · subst r2
          rw [hface f hf 3 (.inr rfl) hbf]
          exact t4
        · exact absurd (r1.symm.trans ha) i3
    · have := hab' 2 3 rfl
      rw [w2, w3] at this
      refine ⟨fun _ => keep (by decide) (by decide), fun ha _ _ => ?_⟩
      exfalso
      rcases this with ⟨r1, r2⟩ | ⟨r1, r2⟩
      · exact i2 (r1.symm.trans ha)
      · exact i3 (r1.symm.trans ha)
  · obtain ⟨q1, q2⟩ := c1
    refine ⟨(q1.1 hx).1, ?_⟩
    rw [q2 hx]
    have w0 : (s'.V (I.new k)).getD (I.t k 0) 0 = I.ip := by
      rw [(hV.done k hk).2]; exact getD_set_eq T.len (lt 0 (by decide)) _
    have wo : ∀ i < 4, i ≠ 0 → (s'.V (I.new k)).getD (I.t k i) 0 = (s.V (I.iel k)).getD (I.t k i) 0 := by
      intro i hi h1
      rw [(hV.done k hk).2]; exact getD_set_ne (tinj 0 (by decide) i hi (Ne.symm h1)) _
    have w1 := wo 1 (by decide) (by decide)
    have w2 := wo 2 (by decide) (by decide)
    have w3 := wo 3 (by decide) (by decide)
    have keep : g' ≠ 1 → g' ≠ 2 →
        (part1 (I.t k) (I.u k) (s.X (s.xt (I.iel k)))).tag g = (s.X (s.xt (I.iel k))).tag g ∧
        (part1 (I.t k) (I.u k) (s.X (s.xt (I.iel k)))).edg g = (s.X (s.xt (I.iel k))).edg g := by
      intro h3 h4
      have e3 : g ≠ I.u k 1 := fun h => h3 (uinj _ hg' _ (by decide) (hgu.symm.trans h))
      have e4 : g ≠ I.u k 2 := fun h => h4 (uinj _ hg' _ (by decide) (hgu.symm.trans h))
      simp [part1, upd, e3, e4]
    have t1 : (part1 (I.t k) (I.u k) (s.X (s.xt (I.iel k)))).tag (I.u k 1) =
        clr ((s.X (s.xt (I.iel k))).ftag (I.t k 3)) 1 ∧
        (part1 (I.t k) (I.u k) (s.X (s.xt (I.iel k)))).edg (I.u k 1) = 0 := by simp [part1, upd, u12]
    have t2 : (part1 (I.t k) (I.u k) (s.X (s.xt (I.iel k)))).tag (I.u k 2) =
        clr ((s.X (s.xt (I.iel k))).ftag (I.t k 2)) 1 ∧
        (part1 (I.t k) (I.u k) (s.X (s.xt (I.iel k)))).edg (I.u k 2) = 0 := by simp [part1, upd]
    interval_cases g'
    · have := hab' 0 1 rfl
      rw [w0, w1] at this
      refine ⟨fun _ => keep (by decide) (by decide), fun ha h1 h2 => ?_⟩
      exfalso
      rcases this with ⟨r1, r2⟩ | ⟨r1, r2⟩
      · rcases hna with ⟨_, z⟩ | ⟨_, z⟩
        · exact h2 (r2.trans z.symm)
        · exact h1 (r2.trans z.symm)
      · exact i1 (r1.symm.trans ha)
    · have := hab' 0 2 rfl
      rw [w0, w2] at this
      subst hgu
      refine ⟨fun hc => ?_, fun ha _ _ f hf hbf => ?_⟩
      · exfalso
        rcases this with ⟨r1, r2⟩ | ⟨r1, r2⟩ <;> subst r1 r2
        · rcases hc with hc | ⟨_, hc⟩
          · exact hc.1 rfl
          · rcases hna with ⟨z1, z2⟩ | ⟨z1, z2⟩ <;> rw [z1, z2] at hc <;> rcases hc with hc | hc
            · exact n02 hc.symm
            · exact n12 hc.symm
            · exact n12 hc.symm
            · exact n02 hc.symm
        · rcases hc with hc | ⟨hc, _⟩
          · exact hc.2 rfl
          · exact i2 hc
      · rcases this with ⟨r1, r2⟩ | ⟨r1, r2⟩
        · subst r2
          rw [hface f hf 2 (.inl rfl) hbf]
          exact t1
        · exact absurd (r1.symm.trans ha) i2
    · have := hab' 0 3 rfl
      rw [w0, w3] at this
      subst hgu
      refine ⟨fun hc => ?_, fun ha _ _ f hf hbf => ?_⟩
      · exfalso
        rcases this with ⟨r1, r2⟩ | ⟨r1, r2⟩ <;> subst r1 r2
        · rcases hc with hc | ⟨_, hc⟩
          · exact hc.1 rfl
          · rcases hna with ⟨z1, z2⟩ | ⟨z1, z2⟩ <;> rw [z1, z2] at hc <;> rcases hc with hc | hc
            · exact n03 hc.symm
            · exact n13 hc.symm
            · exact n13 hc.symm
            · exact n03 hc.symm
        · rcases hc with hc | ⟨hc, _⟩
          · exact hc.2 rfl
          · exact i3 hc
      · rcases this with ⟨r1, r2⟩ | ⟨r1, r2⟩
        · subst r2
          rw [hface f hf 3 (.inr rfl) hbf]
          exact t2
        · exact absurd (r1.symm.trans ha) i3
    · have := hab' 1 2 rfl
      rw [w1, w2] at this
      refine ⟨fun _ => keep (by decide) (by decide), fun ha _ _ => ?_⟩
      exfalso
      rcases this with ⟨r1, r2⟩ | ⟨r1, r2⟩
      · exact i1 (r1.symm.trans ha)
      · exact i2 (r1.symm.trans ha)
    · have := hab' 1 3 rfl
      rw [w1, w3] at this
      refine ⟨fun _ => keep (by decide) (by decide), fun ha _ _ => ?_⟩
      exfalso
      rcases this with ⟨r1, r2⟩ | ⟨r1, r2⟩
      · exact i1 (r1.symm.trans ha)
      · exact i3 (r1.symm.trans ha)
    · have := hab' 2 3 rfl
      rw [w2, w3] at this
      refine ⟨fun _ => keep (by decide) (by decide), fun ha _ _ => ?_⟩
      exfalso
      rcases this with ⟨r1, r2⟩ | ⟨r1, r2⟩
      · exact i2 (r1.symm.trans ha)
      · exact i3 (r1.symm.trans ha)

end

end Mmg.Spl1b
