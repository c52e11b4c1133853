/-
  After the split of an edge inside of the mesh: the ball of the new vertex (for `SwpgProps`).
-/
import Verif.SwpgTour

namespace Mmg.Swpg

open Mmg.Split3 hiding bary
open Mmg.Swap23 Mmg.Shell Mmg.Over
open Mmg.Spl1b (In Round Pre After Org Inner InvA InvV proj getD_inj split1b)

variable {I : In} {used : Nat → Prop} {na nb : Nat} {s s1 : State} {room : Nat → Bool}

/-- `e` is a part of tetrahedron `k` of the shell, with the new vertex at `i`. -/
def Part (I : In) (k e i : Nat) : Prop := e = I.iel k ∧ i = I.t k 1 ∨ e = I.new k ∧ i = I.t k 0

theorem Part.lt (H : Pre I s.A s.V used na nb) {k e i : Nat} (hk : k < I.n) (h : Part I k e i) : i < 4 := by
  have T := H.tet hk
  rcases h with ⟨_, rfl⟩ | ⟨_, rfl⟩
  · exact T.perm.lt 1 (by decide)
  · exact T.perm.lt 0 (by decide)

theorem Part.or {k e i : Nat} (h : Part I k e i) : i = I.t k 0 ∨ i = I.t k 1 := by
  rcases h with ⟨_, rfl⟩ | ⟨_, rfl⟩ <;> simp

theorem Part.after (H : Pre I s.A s.V used na nb) {k e i : Nat} (hk : k < I.n) (h : Part I k e i) : After I used e := by
  rcases h with ⟨rfl, _⟩ | ⟨rfl, _⟩
  · exact .inl (H.tet hk).us
  · exact .inr ⟨k, hk, rfl⟩

theorem Part.org (H : Pre I s.A s.V used na nb) {k e i : Nat} (hk : k < I.n) (h : Part I k e i) :
    Org I used e (I.iel k) := by
  rcases h with ⟨rfl, _⟩ | ⟨rfl, _⟩
  · exact .inl ⟨(H.tet hk).us, rfl⟩
  · exact .inr ⟨k, hk, rfl, rfl⟩

theorem part_of_org (H : Pre I s.A s.V used na nb) {k e : Nat} (hk : k < I.n) (h : Org I used e (I.iel k)) :
    ∃ i, Part I k e i := by
  rcases h with ⟨_, h⟩ | ⟨m, hm, h1, h2⟩
  · exact ⟨_, .inl ⟨h.symm, rfl⟩⟩
  · have : k = m := H.round.inj _ hk _ hm h2
    subst this
    exact ⟨_, .inr ⟨h1, rfl⟩⟩

theorem Part.V (H : Pre I s.A s.V used na nb) (h : split1b I room s = some s1) {k e i : Nat} (hk : k < I.n)
    (hp : Part I k e i) : s1.V e = (s.V (I.iel k)).set i I.ip := by
  have hV := (H.all h).2
  rcases hp with ⟨rfl, rfl⟩ | ⟨rfl, rfl⟩
  · exact (hV.done k hk).1
  · exact (hV.done k hk).2

theorem Part.out (H : Pre I s.A s.V used na nb) (h : split1b I room s = some s1) {k e i : Nat} (hk : k < I.n)
    (hp : Part I k e i) : link s1.A e i = link s.A (I.iel k) i := by
  have hA := (H.all h).1
  rcases hp with ⟨rfl, rfl⟩ | ⟨rfl, rfl⟩
  · exact (hA.done k hk).2.2.1
  · exact (hA.done k hk).2.2.2.1

theorem Part.inn (H : Pre I s.A s.V used na nb) (h : split1b I room s = some s1) {k e i : Nat} (hk : k < I.n)
    (hp : Part I k e i) : ∃ e' i' j, Part I k e' i' ∧ j < 4 ∧ j ≠ i ∧ e' ≠ e ∧ link s1.A e j ≠ 0 ∧ link s1.A e j / 4 = e' ∧
      (j = I.t k 0 ∨ j = I.t k 1) := by
  have hA := (H.all h).1
  have T := H.tet hk
  have l0 := T.perm.lt 0 (by decide)
  have l1 := T.perm.lt 1 (by decide)
  have hij : I.t k 0 ≠ I.t k 1 := fun e => absurd (T.perm.inj 0 (by decide) 1 (by decide) e) (by decide)
  have hn := H.iel_new hk hk
  have p1 := H.iel_pos hk
  have p2 := H.fresh.pos k hk
  rcases hp with ⟨rfl, rfl⟩ | ⟨rfl, rfl⟩
  · refine ⟨_, _, I.t k 0, .inr ⟨rfl, rfl⟩, l0, hij, hn.symm, ?_, ?_, .inl rfl⟩
    · rw [(hA.done k hk).1]; omega
    · rw [(hA.done k hk).1]; omega
  · refine ⟨_, _, I.t k 1, .inl ⟨rfl, rfl⟩, l1, hij.symm, hn, ?_, ?_, .inr rfl⟩
    · rw [(hA.done k hk).2.1]; omega
    · rw [(hA.done k hk).2.1]; omega

/-- The tetrahedra with the new vertex are the parts. -/
theorem mem_ip (H : Pre I s.A s.V used na nb) (h : split1b I room s = some s1) {e : Nat} (he : After I used e) :
    I.ip ∈ s1.V e ↔ ∃ k < I.n, ∃ i, Part I k e i := by
  have hV := (H.all h).2
  constructor
  · intro hi
    rcases he with he | ⟨k, hk, rfl⟩
    · by_cases hs : ∃ k < I.n, e = I.iel k
      · obtain ⟨k, hk, rfl⟩ := hs
        exact ⟨k, hk, _, .inl ⟨rfl, rfl⟩⟩
      · rw [hV.rest e (fun k hk h => hs ⟨k, hk, h⟩) (fun k hk h => H.fresh.free k hk (h ▸ he))] at hi
        exact absurd hi (H.ip e he)
    · exact ⟨k, hk, _, .inr ⟨rfl, rfl⟩⟩
  · rintro ⟨k, hk, i, hp⟩
    rw [hp.V H h hk]
    exact List.mem_set (by rw [(H.tet hk).len]; exact hp.lt H hk) _

theorem Part.getD (H : Pre I s.A s.V used na nb) (h : split1b I room s = some s1) {k e i : Nat} (hk : k < I.n)
    (hp : Part I k e i) {f : Nat} (hf : f < 4) :
    (s1.V e).getD f 0 = if f = i then I.ip else (s.V (I.iel k)).getD f 0 := by
  rw [hp.V H h hk]
  split
  · rename_i h; subst h
    exact getD_set_eq (H.tet hk).len hf _
  · rename_i h
    exact getD_set_ne (Ne.symm h) _

theorem Part.ip_iff (H : Pre I s.A s.V used na nb) (h : split1b I room s = some s1) {k e i : Nat} (hk : k < I.n)
    (hp : Part I k e i) {f : Nat} (hf : f < 4) : (s1.V e).getD f 0 = I.ip ↔ f = i := by
  rw [hp.getD H h hk hf]
  split
  · simp [*]
  · rename_i hne
    refine ⟨fun hh => ?_, fun hh => absurd hh hne⟩
    exfalso
    apply H.ip _ (H.tet hk).us
    rw [← hh, List.getD_eq_getElem _ _ (by rw [(H.tet hk).len]; exact hf)]
    exact List.getElem_mem _

/-- All the faces through the edge have a neighbour. -/
theorem closed_links (H : Pre I s.A s.V used na nb) (ho : I.op = false) {k f : Nat} (hk : k < I.n)
    (hf : Thru (s.V (I.iel k)) na nb f) : link s.A (I.iel k) f ≠ 0 := by
  obtain ⟨fwd, bwd, h1, h2, _, h4⟩ := H.round.faces
  have h4' := h4 ho
  have T := H.tet hk
  have nz : ∀ m < I.n, link s.A (I.l m / 6) (fwd m) ≠ 0 := by
    intro m hm
    by_cases hl : m + 1 < I.n
    · rw [h2 m hl]
      have := H.iel_pos hl
      unfold In.iel at this
      omega
    · have : m = I.n - 1 := by omega
      rw [this, h4']
      have := H.iel_pos (k := 0) (by omega)
      unfold In.iel at this
      omega
  have bz : link s.A (I.l k / 6) (bwd k) ≠ 0 := by
    have key : ∀ m < I.n, link s.A (I.l m / 6) (fwd m) = 4 * (I.l k / 6) + bwd k → link s.A (I.l k / 6) (bwd k) ≠ 0 := by
      intro m hm he
      obtain ⟨_, _, hb, _⟩ := H.mesh.adj.ok _ (H.tet hm).us (fwd m) (h1 m hm).1.1 (nz m hm)
      have b4 := (h1 k hk).2.1.1
      have e' : link s.A (I.iel m) (fwd m) = 4 * (I.l k / 6) + bwd k := he
      rw [e', show (4 * (I.l k / 6) + bwd k) / 4 = I.l k / 6 by omega,
        show (4 * (I.l k / 6) + bwd k) % 4 = bwd k by omega] at hb
      rw [hb]
      have := H.iel_pos hm
      omega
    by_cases h0 : k = 0
    · subst h0
      exact key _ (by omega) h4'
    · obtain ⟨m, rfl⟩ : ∃ m, k = m + 1 := ⟨k - 1, by omega⟩
      exact key m (by omega) (h2 m (by omega))
  have hf' := (T.thru f hf.1).1 hf
  have e1 := (T.thru _ (h1 k hk).1.1).1 (h1 k hk).1
  have e2 := (T.thru _ (h1 k hk).2.1.1).1 (h1 k hk).2.1
  have ne := (h1 k hk).2.2
  have : f = fwd k ∨ f = bwd k := by omega
  rcases this with rfl | rfl
  · exact nz k hk
  · exact bz

theorem Part.thru (H : Pre I s.A s.V used na nb) {k e i : Nat} (hk : k < I.n) (hp : Part I k e i) {f : Nat} (hf : f < 4)
    (h : f = I.t k 2 ∨ f = I.t k 3) : f ≠ i ∧ ¬ Inner I e f ∧ Thru (s.V (I.iel k)) na nb f := by
  have T := H.tet hk
  have b : ∀ i < 4, ∀ j < 4, i ≠ j → I.t k i ≠ I.t k j := fun i hi j hj hij h => hij (T.perm.inj i hi j hj h)
  have b1 := b 0 (by decide) 2 (by decide) (by decide)
  have b2 := b 0 (by decide) 3 (by decide) (by decide)
  have b3 := b 1 (by decide) 2 (by decide) (by decide)
  have b4 := b 1 (by decide) 3 (by decide) (by decide)
  refine ⟨?_, ?_, (T.thru f hf).2 h⟩
  · rcases hp.or with h' | h' <;> omega
  · rintro ⟨m, hm, ⟨h1, h2⟩ | ⟨h1, h2⟩⟩
    · rcases hp with ⟨h3, _⟩ | ⟨h3, _⟩
      · have : k = m := H.round.inj _ hk _ hm (h3.symm.trans h1)
        subst this; omega
      · exact H.iel_new hm hk (h1.symm.trans h3)
    · rcases hp with ⟨h3, _⟩ | ⟨h3, _⟩
      · exact H.iel_new hk hm (h3.symm.trans h1)
      · have : k = m := H.fresh.inj _ hk _ hm (h3.symm.trans h1)
        subst this; omega

/-- The new vertex is inside the mesh. -/
theorem interior_ip (H : Pre I s.A s.V used na nb) (ho : I.op = false) (h : split1b I room s = some s1) :
    Interior s1.A s1.V (After I used) I.ip := by
  intro e he hi f hf hne
  obtain ⟨k, hk, i, hp⟩ := (mem_ip H h he).1 hi
  have T := H.tet hk
  have hfi : f ≠ i := fun e => hne ((hp.ip_iff H h hk hf).2 e)
  obtain ⟨e', i', j, _, hj, hji, _, hl, _, hjj⟩ := hp.inn H h hk
  by_cases hfj : f = j
  · subst hfj; exact hl
  · have : f = I.t k 2 ∨ f = I.t k 3 := by
      rcases Spl1b.Perm4.cases T.perm hf with h' | h' | h' | h' <;> rcases hp.or with q | q <;> rcases hjj with r | r <;> omega
    obtain ⟨_, h2, h3⟩ := hp.thru H hk hf this
    exact (((H.links (H.all h).1 (hp.org H hk) hf).2 h2).2 (closed_links H ho hk h3)).1

/-- All the parts are reached from any of them. -/
theorem reach_ip (H : Pre I s.A s.V used na nb) (ho : I.op = false) (h : split1b I room s = some s1) {k0 e0 i0 : Nat}
    (hk0 : k0 < I.n) (h0 : Part I k0 e0 i0) {k e i : Nat} (hk : k < I.n) (hp : Part I k e i) :
    Relation.ReflTransGen (Boule3.NbrP s1.A s1.V I.ip) e0 e := by
  have hm := H.mesh_after (H.all h).1 (H.all h).2
  -- the other part
  have other : ∀ k < I.n, ∀ e i e' i', Part I k e i → Part I k e' i' →
      Relation.ReflTransGen (Boule3.NbrP s1.A s1.V I.ip) e e' := by
    intro k hk e i e' i' hp hp'
    by_cases hee : e = e'
    · subst hee; exact .refl
    · obtain ⟨x, ix, j, hx, hj, hji, hxe, hl, hq, _⟩ := hp.inn H h hk
      have : x = e' := by
        rcases hp with ⟨a, _⟩ | ⟨a, _⟩ <;> rcases hp' with ⟨b, _⟩ | ⟨b, _⟩ <;> rcases hx with ⟨d, _⟩ | ⟨d, _⟩ <;>
          first | (exact d.trans b.symm) | (exact absurd (a.trans b.symm) hee) | (exact absurd (d.trans a.symm) hxe)
      subst this
      exact .single ⟨j, hj, fun hc => hji ((hp.ip_iff H h hk hj).1 hc), hl, hq.symm⟩
  -- the next tetrahedron
  obtain ⟨fwd, bwd, h1, h2, _, h4⟩ := H.round.faces
  have next : ∀ k < I.n, ∀ e i, Part I k e i → ∃ e' i', Part I ((k + 1) % I.n) e' i' ∧
      Relation.ReflTransGen (Boule3.NbrP s1.A s1.V I.ip) e e' := by
    intro k hk e i hp
    have hpos : 0 < I.n := by omega
    have hn : (k + 1) % I.n < I.n := Nat.mod_lt _ hpos
    have th := (h1 k hk).1
    have hf := th.1
    have hl : link s.A (I.iel k) (fwd k) / 4 = I.iel ((k + 1) % I.n) := by
      by_cases hc : k + 1 < I.n
      · have b := (h1 (k + 1) hc).2.1.1
        have := h2 k hc
        rw [Nat.mod_eq_of_lt hc]
        unfold In.iel
        omega
      · have hkn : k + 1 = I.n := by omega
        have b := (h1 0 hpos).2.1.1
        have := h4 ho
        rw [show I.n - 1 = k by omega] at this
        rw [hkn, Nat.mod_self]
        unfold In.iel
        omega
    obtain ⟨g1, g2, g3⟩ := hp.thru H hk hf (((H.tet hk).thru _ hf).1 th)
    obtain ⟨l1, l2, _, _⟩ := ((H.links (H.all h).1 (hp.org H hk) hf).2 g2).2 (closed_links H ho hk g3)
    rw [hl] at l2
    obtain ⟨i', hp'⟩ := part_of_org H hn l2
    exact ⟨_, i', hp', .single ⟨fwd k, hf, fun hc => g1 ((hp.ip_iff H h hk hf).1 hc), l1, rfl⟩⟩
  -- all of them
  have all : ∀ j, ∃ e i, Part I ((k0 + j) % I.n) e i ∧ Relation.ReflTransGen (Boule3.NbrP s1.A s1.V I.ip) e0 e := by
    intro j
    induction j with
    | zero =>
      rw [Nat.add_zero, Nat.mod_eq_of_lt hk0]
      exact ⟨e0, i0, h0, .refl⟩
    | succ j ih =>
      obtain ⟨e, i, hp, hr⟩ := ih
      obtain ⟨e', i', hp', hr'⟩ := next _ (Nat.mod_lt _ (by omega)) e i hp
      refine ⟨e', i', ?_, hr.trans hr'⟩
      rw [show (k0 + (j + 1)) % I.n = ((k0 + j) % I.n + 1) % I.n by rw [Nat.mod_add_mod]; rfl]
      exact hp'
  obtain ⟨e', i', hp', hr⟩ := all (k + I.n - k0)
  rw [show k0 + (k + I.n - k0) = k + I.n by omega, Nat.add_mod_right, Nat.mod_eq_of_lt hk] at hp'
  exact hr.trans (other k hk _ _ _ _ hp' hp)

/-- The list `MMG5_boulevolp` gives is the ball of the new vertex, if there is room for it. -/
theorem ball_ip (H : Pre I s.A s.V used na nb) (ho : I.op = false) (h : split1b I room s = some s1) {lmax base k0 : Nat}
    {flag : Nat → Nat} (hk0 : k0 < I.n) (hfl : ∀ k, flag k ≠ base) (hl3 : 3 ≤ lmax) (hfit : 2 * I.n ≤ lmax - 2) :
    ∃ b, Boule3.boulevolp s1.A s1.V lmax base flag (I.iel k0) (Boule3.find (s1.V (I.iel k0)) I.ip) = .ok b ∧
      Colver.IsBall s1.V (After I used) I.ip b.l ∧ b.l ≠ [] ∧ b.l.headD 0 / 4 = I.iel k0 := by
  have hm := H.mesh_after (H.all h).1 (H.all h).2
  have hp0 : Part I k0 (I.iel k0) (I.t k0 1) := .inl ⟨rfl, rfl⟩
  have hu := hp0.after H hk0
  have hin := (mem_ip H h hu).2 ⟨k0, hk0, _, hp0⟩
  obtain ⟨f1, f2⟩ := Boule3.find_spec (hm.len _ hu) hin
  have hg : ∀ k, Boule3.InBall s1.A s1.V (I.iel k0) (Boule3.find (s1.V (I.iel k0)) I.ip) k →
      After I used k ∧ I.ip ∈ s1.V k := by
    intro k hk
    unfold Boule3.InBall at hk
    rw [f2] at hk
    induction hk with
    | refl => exact ⟨hu, hin⟩
    | tail _ hn ih =>
      obtain ⟨f, hf, hne, hl, rfl⟩ := hn
      exact Boule3.cross hm ih.1 ih.2 hf hne hl
  obtain ⟨n1, n2⟩ := Boule3.C62_no_ball hm (lmax := lmax) (base := base) (flag := flag) hl3 hu f1 hfl
  have nf : Boule3.boulevolp s1.A s1.V lmax base flag (I.iel k0) (Boule3.find (s1.V (I.iel k0)) I.ip) ≠ .full := by
    intro hc
    obtain ⟨L, d1, d2, d3⟩ := n2 hc
    have hsub : L ⊆ (List.range I.n).map I.iel ++ (List.range I.n).map I.new := by
      intro k hk
      obtain ⟨a, b⟩ := hg k (d3 k hk)
      obtain ⟨m, hm, i, ⟨rfl, _⟩ | ⟨rfl, _⟩⟩ := (mem_ip H h a).1 b
      · exact List.mem_append_left _ (List.mem_map.2 ⟨m, List.mem_range.2 hm, rfl⟩)
      · exact List.mem_append_right _ (List.mem_map.2 ⟨m, List.mem_range.2 hm, rfl⟩)
    have := (d1.subperm hsub).length_le
    simp at this
    omega
  cases hb : Boule3.boulevolp s1.A s1.V lmax base flag (I.iel k0) (Boule3.find (s1.V (I.iel k0)) I.ip) with
  | asrt => exact absurd hb n1
  | full => exact absurd hb nf
  | ok b =>
    obtain ⟨b1, b2, b3, b4, _⟩ := Boule3.C62_ball hm hl3 hu f1 hfl hb
    rw [f2] at b3
    refine ⟨b, rfl, ⟨b1, b3, ?_⟩, ?_, ?_⟩
    · intro k hk hi
      rw [b2]
      obtain ⟨m, hm', i, hp⟩ := (mem_ip H h hk).1 hi
      unfold Boule3.InBall
      rw [f2]
      exact reach_ip H ho h hk0 hp0 hm' hp
    · rintro e; rw [e] at b4; cases b4
    · rw [List.headD_eq_head?_getD, b4]
      show (4 * I.iel k0 + _) / 4 = _
      omega

end Mmg.Swpg
