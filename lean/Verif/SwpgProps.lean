/-
  C86. Swapping an edge inside of a tetrahedral mesh (`MMG5_chkswpgen` and `MMG5_swpgen`) keeps a valid mesh and improves
  the worst quality around the edge.
-/
import Verif.SwpgBall

namespace Mmg.Swpg

open Mmg.Split3 hiding bary
open Mmg.Swap23 Mmg.Shell Mmg.Over
open Mmg.Spl1b (In Round Pre After proj getD_inj split1b C85_good C85_boundary C85_succeeds)

section
variable {K : Type} [Field K] [LinearOrder K] [IsStrictOrderedRing K]

/-- Arguments of the split in the swap. -/
abbrev inOf (l : List Nat) (new : Nat → Nat) (ip : Nat) : In := ⟨fun j => l.getD j 0, l.length, false, new, ip⟩

/-- The tetrahedra after the swap: those that are not around the edge, and the two parts of each one around the edge but the
two of positions `k0` and `k0 + 1`. -/
def Left (l : List Nat) (new : Nat → Nat) (k0 : Nat) (used : Nat → Prop) (e : Nat) : Prop :=
  (used e ∧ ∀ j < l.length, e ≠ l.getD j 0 / 6) ∨
  ∃ j < l.length, j ≠ k0 ∧ j ≠ (k0 + 1) % l.length ∧ (e = l.getD j 0 / 6 ∨ e = new j)

/-- What is assumed: a valid mesh with right boundary data; a tetrahedron with positive quality has positive volume,
qualities are not negative; the new numbers are free; the new vertex is the middle of the edge; the ball fits in the
list. -/
structure World (E : Env K) (s : State) (used : Nat → Prop) (c : Nat → Pt K) (crit : K) (na nb : Nat) (l : List Nat)
    (new : Nat → Nat) (ip lmax base : Nat) (flag : Nat → Nat) : Prop where
  good : Good s.A s.V used c
  A : E.A = s.A
  V : E.V = s.V
  faces : Colver.FaceOK E.tref used (proj s)
  slots : Colver.Slots used (proj s)
  cal : ∀ v, v.length = 4 → 0 < E.cal v → 0 < volOf c v
  qual : ∀ k, used k → 0 ≤ E.qual k
  crit : 0 ≤ crit
  fresh : Delone.Fresh new used l.length
  mid : c ip = Pt.lerp (c na) (c nb) (1 / 2)
  ip : ∀ k, used k → ip ∉ s.V k
  flag : ∀ k, flag k ≠ base
  fits : 3 ≤ lmax ∧ 2 * l.length ≤ lmax - 2

omit [LinearOrder K] [IsStrictOrderedRing K] in
theorem vol_dup (c : Nat → Pt K) {v : List Nat} (hl : v.length = 4) {i j : Nat} (hi : i < 4) (hj : j < 4) (hij : i ≠ j)
    (h : v.getD i 0 = v.getD j 0) : volOf c v = 0 := by
  match v, hl with
  | [a, b, d, e], _ =>
    interval_cases i <;> interval_cases j <;> first | exact absurd rfl hij | skip
    all_goals
      simp only [List.getD_cons_zero, List.getD_cons_succ] at h
      subst h
      simp only [volOf, vol, List.getD_cons_zero, List.getD_cons_succ]
      ring

theorem mem_getD {v : List Nat} (hl : v.length = 4) {i : Nat} (hi : i < 4) : v.getD i 0 ∈ v := by
  rw [List.getD_eq_getElem _ _ (by rw [hl]; exact hi)]
  exact List.getElem_mem _

/-- References after the split. -/
theorem refs_spec {l : List Nat} {new : Nat → Nat} {ip : Nat} {used : Nat → Prop} (hf : Delone.Fresh new used l.length)
    (hu : ∀ j < l.length, used (l.getD j 0 / 6)) (tref : Nat → Int) :
    (∀ e, used e → refs (inOf l new ip) tref e = tref e) ∧
    ∀ k < l.length, refs (inOf l new ip) tref (new k) = tref (l.getD k 0 / 6) := by
  have key : ∀ m ≤ l.length, (∀ e, used e → ((List.range m).foldl (fun r k => upd r ((inOf l new ip).new k)
      (r ((inOf l new ip).iel k))) tref) e = tref e) ∧
      ∀ k < m, ((List.range m).foldl (fun r k => upd r ((inOf l new ip).new k) (r ((inOf l new ip).iel k))) tref) (new k) =
        tref (l.getD k 0 / 6) := by
    intro m
    induction m with
    | zero => intro _; exact ⟨fun _ _ => rfl, fun k hk => absurd hk (by omega)⟩
    | succ m ih =>
      intro hm
      obtain ⟨h1, h2⟩ := ih (by omega)
      simp only [List.range_succ, List.foldl_append, List.foldl_cons, List.foldl_nil]
      refine ⟨fun e he => ?_, fun k hk => ?_⟩
      · have : e ≠ new m := fun h => hf.free m (by omega) (h ▸ he)
        simp only [upd, if_neg this]
        exact h1 e he
      · by_cases hkm : k = m
        · subst hkm
          simp only [upd, if_pos]
          exact h1 _ (hu k (by omega))
        · have : new k ≠ new m := fun h => hkm (hf.inj k (by omega) m (by omega) h)
          simp only [upd, if_neg this]
          exact h2 k (by omega)
  exact key l.length le_rfl

variable {E : Env K} {s : State} {used : Nat → Prop} {c : Nat → Pt K} {crit : K} {na nb : Nat} {l : List Nat}
  {new : Nat → Nat} {ip lmax base : Nat} {flag : Nat → Nat} {start nconf k0 : Nat} {cc : K} {P : Nat → Nat}

theorem World.pre (W : World E s used c crit na nb l new ip lmax base flag)
    (C : Choice E used na nb crit start nconf l cc k0 P) : Pre (inOf l new ip) s.A s.V used na nb :=
  ⟨W.good.mesh, W.good.noTwins, by rw [← W.A, ← W.V]; exact C.round, W.fresh, W.ip⟩

/-- The chosen vertex. -/
theorem World.np (W : World E s used c crit na nb l new ip lmax base flag)
    (C : Choice E used na nb crit start nconf l cc k0 P) :
    vtx E nconf ≠ na ∧ vtx E nconf ≠ nb ∧ vtx E nconf ≠ ip ∧ vtx E nconf ∈ s.V (l.getD k0 0 / 6) ∧
      vtx E nconf ∈ s.V (l.getD ((k0 + 1) % l.length) 0 / 6) ∧ nconf / 4 = l.getD k0 0 / 6 ∧
      (s.V (l.getD k0 0 / 6)).getD (nconf % 4) 0 = vtx E nconf ∧ Thru (s.V (l.getD k0 0 / 6)) na nb (nconf % 4) := by
  obtain ⟨p1, p2, p3, _⟩ := C.pol k0 C.lt
  rw [C.conf] at p1 p2 p3
  rw [W.V] at p2 p3
  rw [p1] at p2
  have hu := C.round.used k0 C.lt
  have e : vtx E nconf = (s.V (l.getD k0 0 / 6)).getD (nconf % 4) 0 := by unfold vtx; rw [W.V, p1]
  have hmem : vtx E nconf ∈ s.V (l.getD k0 0 / 6) := by
    rw [e]
    exact mem_getD (W.good.mesh.len _ hu) p2.1
  exact ⟨by rw [e]; exact p2.2.1, by rw [e]; exact p2.2.2, fun h => W.ip _ hu (h ▸ hmem), hmem, p3, p1, e.symm, p2⟩

/-- The volumes of the new tetrahedra. -/
theorem World.pos (W : World E s used c crit na nb l new ip lmax base flag)
    (C : Choice E used na nb crit start nconf l cc k0 P) {j : Nat} (hj : j < l.length) (h1 : j ≠ k0)
    (h2 : j ≠ (k0 + 1) % l.length) {e i : Nat} (hp : Part (inOf l new ip) j e i) :
    0 < volOf c ((s.V (l.getD j 0 / 6)).set i (vtx E nconf)) ∧
    crit * cc < E.cal ((s.V (l.getD j 0 / 6)).set i (vtx E nconf)) ∧ facing E (l.getD j 0 / 6) i (vtx E nconf) = false := by
  have H := W.pre C
  have T := H.tet hj
  obtain ⟨a, b, ca, cb, _⟩ := C.pass j hj h1 h2
  rw [W.V] at ca cb
  have h0 : 0 ≤ crit * cc := by
    obtain ⟨m, hm, he⟩ := C.worst
    rw [he]
    exact mul_nonneg W.crit (W.qual _ (C.round.used m hm))
  have hl : ∀ i x, ((s.V (l.getD j 0 / 6)).set i x).length = 4 := fun i x => by
    rw [List.length_set]; exact T.len
  have key : i = (iare.getD (l.getD j 0 % 6) (0, 0)).1 ∨ i = (iare.getD (l.getD j 0 % 6) (0, 0)).2 := by
    have := Spl1b.t_iare (H.round.edge j hj).1
    rcases hp with ⟨_, h⟩ | ⟨_, h⟩ <;> rw [h] <;> rcases this with ⟨q1, q2⟩ | ⟨q1, q2⟩
    · exact .inr q2
    · exact .inl q2
    · exact .inl q1
    · exact .inr q1
  rcases key with h | h <;> rw [h]
  · exact ⟨W.cal _ (hl _ _) (lt_of_le_of_lt h0 ca), ca, a⟩
  · exact ⟨W.cal _ (hl _ _) (lt_of_le_of_lt h0 cb), cb, b⟩

/-- The chosen vertex is in no other tetrahedron around the edge. -/
theorem World.np_not (W : World E s used c crit na nb l new ip lmax base flag)
    (C : Choice E used na nb crit start nconf l cc k0 P) {j : Nat} (hj : j < l.length) (h1 : j ≠ k0)
    (h2 : j ≠ (k0 + 1) % l.length) : vtx E nconf ∉ s.V (l.getD j 0 / 6) := by
  intro hmem
  have H := W.pre C
  have T := H.tet hj
  have hp : Part (inOf l new ip) j ((inOf l new ip).iel j) ((inOf l new ip).t j 1) := .inl ⟨rfl, rfl⟩
  have hi := hp.lt H hj
  have hv := (W.pos C hj h1 h2 hp).1
  obtain ⟨n1, n2, _⟩ := W.np C
  obtain ⟨m, hm, he⟩ := List.getElem_of_mem hmem
  have hl : (s.V (l.getD j 0 / 6)).length = 4 := T.len
  rw [hl] at hm
  have he' : (s.V (l.getD j 0 / 6)).getD m 0 = vtx E nconf := by
    rw [List.getD_eq_getElem _ _ (by rw [hl]; exact hm)]; exact he
  have hmi : (inOf l new ip).t j 1 ≠ m := by
    intro h
    rcases T.ends with ⟨_, e1⟩ | ⟨_, e1⟩
    · rw [h] at e1; exact n2 (he'.symm.trans e1)
    · rw [h] at e1; exact n1 (he'.symm.trans e1)
  have := vol_dup c (v := (s.V (l.getD j 0 / 6)).set ((inOf l new ip).t j 1) (vtx E nconf))
    (by rw [List.length_set]; exact hl) hi hm hmi
    (by rw [getD_set_eq hl hi, getD_set_ne hmi]; exact he'.symm)
  rw [this] at hv
  exact lt_irrefl _ hv

theorem World.core (W : World E s used c crit na nb l new ip lmax base flag)
    (C : Choice E used na nb crit start nconf l cc k0 P) (room : Nat → Bool) :
    (swpgen E.tref room lmax base flag new ip nconf l s = .nomem ∧ ∃ n, room n = false) ∨
    ∃ s', swpgen E.tref room lmax base flag new ip nconf l s = .done s' ∧
      Good s'.A s'.V (Left l new k0 used) c ∧
      Colver.FaceOK (refs (inOf l new ip) E.tref) (Left l new k0 used) s' ∧ Colver.Slots (Left l new k0 used) s' ∧
      (∀ e, used e → (∀ j < l.length, e ≠ l.getD j 0 / 6) → s'.V e = s.V e) ∧
      ∀ j < l.length, j ≠ k0 → j ≠ (k0 + 1) % l.length → ∀ e i, Part (inOf l new ip) j e i →
        s'.V e = (s.V (l.getD j 0 / 6)).set i (vtx E nconf) := by
  have H := W.pre C
  obtain ⟨n1, n2, n3, n4, n5, n6, n7, n8⟩ := W.np C
  have hI : inOf l new ip = ⟨fun j => l.getD j 0, l.length, false, new, ip⟩ := rfl
  cases hsp : split1b (inOf l new ip) room s with
  | none =>
    left
    refine ⟨by unfold swpgen; dsimp only; rw [hsp], ?_⟩
    by_contra hc
    have := C85_succeeds H (room := room) (fun k => by
      by_contra hk
      exact hc ⟨k, by simpa using hk⟩)
    rw [hsp] at this
    cases this
  | some s1 =>
    obtain ⟨b, hb, hball, hne, hhd⟩ := ball_ip H rfl hsp (lmax := lmax) (base := base) (flag := flag) C.lt W.flag W.fits.1
      W.fits.2
    have hm1 := H.mesh_after (H.all hsp).1 (H.all hsp).2
    have hr := refs_spec (ip := ip) W.fresh C.round.used E.tref
    have G1 := C85_good W.good H hsp (r := 1 / 2) W.mid (by norm_num) (by norm_num)
    obtain ⟨F1, S1⟩ := C85_boundary H W.slots hr W.faces hsp
    have hq : (s1.V (b.l.headD 0 / 4)).getD (nconf % 4) 0 = vtx E nconf := by
      rw [hhd]
      have hp : Part (inOf l new ip) k0 ((inOf l new ip).iel k0) ((inOf l new ip).t k0 1) := .inl ⟨rfl, rfl⟩
      rw [hp.getD H hsp C.lt n8.1, if_neg ((hp.thru H C.lt n8.1 (((H.tet C.lt).thru _ n8.1).1 n8)).1)]
      exact n7
    have hpq : ip ≠ vtx E nconf := fun h => n3 h.symm
    have hrest : ∀ e, used e → (∀ j < l.length, e ≠ l.getD j 0 / 6) → s1.V e = s.V e := fun e he hn =>
      (H.all hsp).2.rest e hn (fun k hk h => W.fresh.free k hk (show used (new k) from (show e = new k from h) ▸ he))
    -- which tetrahedra go
    have mem : ∀ j < l.length, ∀ e i, Part (inOf l new ip) j e i →
        (vtx E nconf ∈ s1.V e ↔ j = k0 ∨ j = (k0 + 1) % l.length) := by
      intro j hj e i hp
      have T := H.tet hj
      rw [hp.V H hsp hj]
      constructor
      · intro hin
        by_contra hc
        rw [not_or] at hc
        rcases List.mem_or_eq_of_mem_set hin with h | h
        · exact W.np_not C hj hc.1 hc.2 h
        · exact n3 h
      · intro hc
        have hin : vtx E nconf ∈ s.V (l.getD j 0 / 6) := by
          rcases hc with rfl | rfl
          · exact n4
          · exact n5
        obtain ⟨m, hm, he⟩ := List.getElem_of_mem hin
        have hl : (s.V (l.getD j 0 / 6)).length = 4 := T.len
        have he' : (s.V (l.getD j 0 / 6)).getD m 0 = vtx E nconf := by
          rw [List.getD_eq_getElem _ _ hm]; exact he
        have hmi : i ≠ m := by
          intro h
          subst h
          rcases hp.or with h | h <;> subst h <;> rcases T.ends with ⟨e0, e1⟩ | ⟨e0, e1⟩
          · exact n1 (he'.symm.trans e0)
          · exact n2 (he'.symm.trans e0)
          · exact n2 (he'.symm.trans e1)
          · exact n1 (he'.symm.trans e1)
        have : ((s.V (l.getD j 0 / 6)).set i ip).getD m 0 = vtx E nconf := by rw [getD_set_ne hmi]; exact he'
        rw [← this, List.getD_eq_getElem _ _ (by rw [List.length_set]; exact hm)]
        exact List.getElem_mem _
    have hU : Colver.O s1.V (After (inOf l new ip) used) ip (vtx E nconf) = Left l new k0 used := by
      funext e
      apply propext
      constructor
      · rintro ⟨hu, hd⟩
        by_cases hi : ip ∈ s1.V e
        · obtain ⟨j, hj, i, hp⟩ := (mem_ip H hsp hu).1 hi
          have : ¬ (j = k0 ∨ j = (k0 + 1) % l.length) := fun h => hd ⟨hu, hi, (mem j hj e i hp).2 h⟩
          rw [not_or] at this
          refine .inr ⟨j, hj, this.1, this.2, ?_⟩
          rcases hp with ⟨h, _⟩ | ⟨h, _⟩
          · exact .inl h
          · exact .inr h
        · rcases hu with hu | ⟨k, hk, rfl⟩
          · refine .inl ⟨hu, fun j hj h => hi ?_⟩
            exact (mem_ip H hsp (.inl hu)).2 ⟨j, hj, _, .inl ⟨h, rfl⟩⟩
          · exact absurd ((mem_ip H hsp (.inr ⟨k, hk, rfl⟩)).2 ⟨k, hk, _, .inr ⟨rfl, rfl⟩⟩) hi
      · rintro (⟨hu, hn⟩ | ⟨j, hj, j1, j2, he⟩)
        · refine ⟨.inl hu, fun hd => ?_⟩
          have := hd.2.1
          rw [hrest e hu hn] at this
          exact W.ip e hu this
        · have : ∃ i, Part (inOf l new ip) j e i := by
            rcases he with h | h
            · exact ⟨_, .inl ⟨h, rfl⟩⟩
            · exact ⟨_, .inr ⟨h, rfl⟩⟩
          obtain ⟨i, hp⟩ := this
          refine ⟨hp.after H hj, fun hd => ?_⟩
          rcases (mem j hj e i hp).1 hd.2.2 with h | h <;> contradiction
    -- moved tetrahedra
    have moved : ∀ j < l.length, ∀ e i, Part (inOf l new ip) j e i →
        (s1.V e).map (fun a => if a = ip then vtx E nconf else a) = (s.V (l.getD j 0 / 6)).set i (vtx E nconf) := by
      intro j hj e i hp
      rw [hp.V H hsp hj, List.map_set, if_pos rfl]
      congr 1
      have hno := W.ip _ (H.tet hj).us
      show (s.V (l.getD j 0 / 6)).map _ = _
      conv_rhs => rw [← List.map_id (s.V (l.getD j 0 / 6))]
      refine List.map_congr_left fun a ha => ?_
      rw [if_neg (fun h : a = ip => hno (h ▸ ha))]
      rfl
    have hpos : ∀ e, After (inOf l new ip) used e → ip ∈ s1.V e → vtx E nconf ∉ s1.V e →
        0 < volOf c ((s1.V e).map fun a => if a = ip then vtx E nconf else a) := by
      intro e he hi hn
      obtain ⟨j, hj, i, hp⟩ := (mem_ip H hsp he).1 hi
      have : ¬ (j = k0 ∨ j = (k0 + 1) % l.length) := fun h => hn ((mem j hj e i hp).2 h)
      rw [not_or] at this
      rw [moved j hj e i hp]
      exact (W.pos C hj this.1 this.2 hp).1
    obtain ⟨q1, q2, q3⟩ := Colver.C63_safe (tref := refs (inOf l new ip) E.tref) (room := room) (s := proj s1) hm1
      G1.noTwins F1 S1 hball hne hq hpq
    have q2' : Colver.colver (refs (inOf l new ip) E.tref) room b.l (nconf % 4) (proj s1) ≠ .refused := by
      intro hc
      obtain ⟨e, he, hi, hn, f, hf, hfi, hl0, hx⟩ := q2.1 hc
      obtain ⟨j, hj, i, hp⟩ := (mem_ip H hsp he).1 hi
      have hj' : ¬ (j = k0 ∨ j = (k0 + 1) % l.length) := fun h => hn ((mem j hj e i hp).2 h)
      rw [not_or] at hj'
      have : f = i := (hp.ip_iff H hsp hj hf).1 hfi
      subst this
      have ho := hp.out H hsp hj
      change link s1.A e f ≠ 0 at hl0
      change (s1.V (link s1.A e f / 4)).getD (link s1.A e f % 4) 0 = _ at hx
      rw [ho] at hl0 hx
      have hfc := (W.pos C hj hj'.1 hj'.2 hp).2.2
      unfold facing at hfc
      rw [W.A, W.V] at hfc
      have hf4 := hp.lt H hj
      obtain ⟨hu, _⟩ := W.good.mesh.adj.ok _ (H.tet hj).us f hf4 hl0
      have hout := fun m (hm : m < l.length) => H.outside hj hp.or hl0 (m := m) hm
      rw [hrest _ hu hout] at hx
      have h1 := W.good.mesh.adj.pos _ hu
      simp only [Bool.and_eq_false_iff, decide_eq_false_iff_not] at hfc
      rcases hfc with h | h
      · apply h
        have : link s.A (l.getD j 0 / 6) f / 4 = link s.A ((inOf l new ip).iel j) f / 4 := rfl
        omega
      · exact h hx
    have hsw : ∀ r, Colver.colver (refs (inOf l new ip) E.tref) room b.l (nconf % 4) (proj s1) = r →
        swpgen E.tref room lmax base flag new ip nconf l s = (match r with
          | .refused => .asrt
          | .nomem => .nomem
          | .asrt => .asrt
          | .done _ s' => .done s') := by
      rintro r rfl
      unfold swpgen
      dsimp only
      rw [hsp]
      dsimp only
      rw [n6]
      have hb' : Boule3.boulevolp s1.A s1.V lmax base flag (l.getD k0 0 / 6) (Boule3.find (s1.V (l.getD k0 0 / 6)) ip) =
        .ok b := hb
      rw [hb']
      rfl
    cases hco : Colver.colver (refs (inOf l new ip) E.tref) room b.l (nconf % 4) (proj s1) with
    | refused => exact absurd hco q2'
    | asrt => exact absurd hco q1
    | nomem => exact .inl ⟨hsw _ hco, q3 hco⟩
    | done np s' =>
      right
      have g := C66_collapse (s := proj s1) G1 F1 S1 hball hne hq hpq
        (within_of_interior (interior_ip H rfl hsp) c _) hpos hco
      obtain ⟨_, _, m3, _⟩ := Colver.C63_mesh (s := proj s1) hm1 G1.noTwins F1 S1 hball hne hq hpq hco
      obtain ⟨f1, f2⟩ := Colver.C63_faces (s := proj s1) hm1 G1.noTwins F1 S1 hball hne hq hpq hco
      change Good s'.A s'.V (Colver.O s1.V (After (inOf l new ip) used) ip (vtx E nconf)) c at g
      change ∀ k, Colver.O s1.V (After (inOf l new ip) used) ip (vtx E nconf) k → s'.V k = (s1.V k).map _ at m3
      change Colver.FaceOK _ (Colver.O s1.V (After (inOf l new ip) used) ip (vtx E nconf)) s' at f1
      change Colver.Slots (Colver.O s1.V (After (inOf l new ip) used) ip (vtx E nconf)) s' at f2
      rw [hU] at g m3 f1 f2
      refine ⟨s', hsw _ hco, g, f1, f2, ?_, ?_⟩
      · intro e hu hn
        rw [m3 e (.inl ⟨hu, hn⟩), hrest e hu hn]
        exact Colver.moved_not (W.ip e hu)
      · intro j hj j1 j2 e i hp
        have : Left l new k0 used e := .inr ⟨j, hj, j1, j2, by
          rcases hp with ⟨h, _⟩ | ⟨h, _⟩
          · exact .inl h
          · exact .inr h⟩
        rw [m3 e this, moved j hj e i hp]

end

end Mmg.Swpg
