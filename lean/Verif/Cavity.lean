/-
  C65. Properties of the cavity of a vertex inserted on an edge (`MMG5_cavity_iso`,
  `MMG5_cavity_ani`, mmg3d/delaunay_3d.c).
-/
import Verif.CavityGrow
import Verif.CavityGeo
import Verif.ColverModel

namespace Mmg.Cavity

open Mmg.Split3 Mmg.Swap23 Mmg.Shell Mmg.Delone

/-- Situation at the call: valid mesh, consistent boundary faces, list of tetrahedra around the edge
`a b`, flags all different from `base` (`mesh->base` has just been increased), and room for the list
of the shell and four more (the arrays have `MMG3D_LMAX + 2` entries, `MMG5_coquil` gives at most
`MMG3D_LMAX - 2`). -/
structure Pre (m : M) (used : Nat → Prop) (cap lonmax base a b : Nat) (shell : List Nat)
    (flag : Nat → Nat) : Prop where
  mesh : Mesh m.A m.V used
  faces : FacesOK m used
  list : IsShell m.V used a b shell
  fresh : ∀ k, used k → flag k ≠ base
  base : 1 ≤ base
  room : shell.length + 4 ≤ cap
  cap : lonmax < cap

section
variable {m : M} {used : Nat → Prop} {sphere : Nat → Bool} {bad : Nat → Nat → Bool}
  {cap lonmax base a b : Nat} {ipnul : Bool} {shell : List Nat} {flag : Nat → Nat}

/-! ### Lemmas -/

theorem mark_false {tref : Int} : ∀ (xs : List Nat) (flag : Nat → Nat),
    (mark m base tref xs flag).1 = false →
    (m.opnbdy = false ∧ ∃ x ∈ xs, m.tref (x / 6) ≠ tref) ∨
    (m.opnbdy = true ∧ ∃ x ∈ xs, m.bdy (x / 6) (ifar (x % 6)).1 = true ∨
      m.bdy (x / 6) (ifar (x % 6)).2 = true) := by
  intro xs
  induction xs with
  | nil => intro flag h; simp [mark] at h
  | cons x xs ih =>
    intro flag h
    unfold mark at h
    simp only at h
    by_cases ho : m.opnbdy = true
    · rw [if_neg (by simp [ho])] at h
      by_cases hb : (m.bdy (x / 6) (ifar (x % 6)).1 || m.bdy (x / 6) (ifar (x % 6)).2) = true
      · exact .inr ⟨ho, x, by simp, by simpa using hb⟩
      · rw [if_neg hb] at h
        rcases ih _ h with ⟨h1, y, h2, h3⟩ | ⟨h1, y, h2, h3⟩
        · exact .inl ⟨h1, y, by simp [h2], h3⟩
        · exact .inr ⟨h1, y, by simp [h2], h3⟩
    · rw [Bool.not_eq_true] at ho
      rw [if_pos (by simp [ho])] at h
      by_cases hb : tref ≠ m.tref (x / 6)
      · exact .inl ⟨ho, x, by simp, hb.symm⟩
      · rw [if_neg hb] at h
        rcases ih _ h with ⟨h1, y, h2, h3⟩ | ⟨h1, y, h2, h3⟩
        · exact .inl ⟨h1, y, by simp [h2], h3⟩
        · exact .inr ⟨h1, y, by simp [h2], h3⟩

theorem Pre.ginv (H : Pre m used cap lonmax base a b shell flag) {flag' : Nat → Nat}
    (hf : ∀ k, flag' k = if k ∈ shell.map (· / 6) then base else flag k) :
    GInv m used sphere base (shell.map (· / 6)) ⟨shell.map (· / 6), flag', false⟩ := by
  refine ⟨H.list.nd, ?_, ?_, ⟨[], by simp, by simp, by simp⟩, ?_, fun k hk => ⟨k, hk, rfl⟩⟩
  · intro k hk
    obtain ⟨x, hx, rfl⟩ := List.mem_map.1 hk
    exact (H.list.ent x hx).1
  · intro k hk
    simp only [hf]
    by_cases h : k ∈ shell.map (· / 6)
    · rw [if_pos h]; exact ⟨fun _ => h, fun _ => rfl⟩
    · rw [if_neg h]; exact ⟨fun h' => absurd h' (H.fresh k hk), fun h' => absurd h' h⟩
  · intro k hk f hf h0 h1
    exact .inl ⟨hk, h1⟩

theorem GInv.cinv {sh : List Nat} {g : G} (I : GInv m used sphere base sh g) :
    CInv m used base g.l sh.length g.l g.flag := by
  obtain ⟨ext, e, _⟩ := I.pre
  exact ⟨I.nd, fun _ h => h, I.flag, rfl, by rw [e]; simp⟩

theorem GInv.take {sh : List Nat} {g : G} (I : GInv m used sphere base sh g) :
    g.l.take sh.length = sh := by
  obtain ⟨ext, e, _⟩ := I.pre
  rw [e]; simp

theorem correct_id (hm : Mesh m.A m.V used) {l : List Nat} {fl : Nat → Nat}
    (hfl : ∀ k, used k → (fl k = base ↔ k ∈ l)) (hu : ∀ k ∈ l, used k)
    (hr : ∀ k ∈ l, m.req k = false) (hb : ∀ k i, Outer m.A l k i → bad k i = false) (p fuel : Nat) :
    correct m bad base p (fuel + 1) l fl = .ok l fl := by
  unfold correct
  rcases scan_spec (m := m) (bad := bad) (base := base) (flag := fl) (l := l) l.length with
    ⟨h1, h2⟩ | ⟨n, hn, h1, h2⟩
  · rw [h1]
  · exfalso
    have hk : l.getD n 0 ∈ l := by
      rw [List.getD_eq_getElem?_getD, List.getElem?_eq_getElem hn]; exact List.getElem_mem _
    rcases (fails_iff hm hfl hk (hu _ hk)).1 h2 with h | ⟨i, ho, h⟩
    · rw [hr _ hk] at h; cases h
    · rw [hb _ i ho] at h; cases h

/-- What the function does. -/
theorem cavity_spec (H : Pre m used cap lonmax base a b shell flag) :
    (∃ fl, cavity m sphere bad cap lonmax base ipnul shell flag = .ret 0 [] fl ∧
      (shell = [] ∨ ipnul = true ∨
        (m.opnbdy = false ∧ ∃ x ∈ shell, m.tref (x / 6) ≠ m.tref (shell.headD 0 / 6)) ∨
        (m.opnbdy = true ∧ ∃ x ∈ shell, m.bdy (x / 6) (ifar (x % 6)).1 = true ∨
          m.bdy (x / 6) (ifar (x % 6)).2 = true))) ∨
    (shell ≠ [] ∧ ipnul = false ∧
      (m.opnbdy = false → ∀ x ∈ shell, m.tref (x / 6) = m.tref (shell.headD 0 / 6)) ∧
      (m.opnbdy = true → ∀ x ∈ shell, m.bdy (x / 6) (ifar (x % 6)).1 = false ∧
        m.bdy (x / 6) (ifar (x % 6)).2 = false) ∧
      ∃ g, GInv m used sphere base (shell.map (· / 6)) g ∧
        ((lonmax < g.l.length + 3 ∧
            cavity m sphere bad cap lonmax base ipnul shell flag = .ret (-1) g.l g.flag) ∨
          (g.l.length + 3 ≤ lonmax ∧ (∀ k ∈ g.l, ∀ i < 4, Blocked m sphere g.l (link m.A k i)) ∧
            ((∃ l' fl, cavity m sphere bad cap lonmax base ipnul shell flag = .ret 0 g.l fl ∧
                CInv m used base g.l shell.length l' fl ∧ ∃ n ≤ shell.length, n < l'.length ∧
                  (m.req (l'.getD n 0) = true ∨
                    ∃ i, Outer m.A l' (l'.getD n 0) i ∧ bad (l'.getD n 0) i = true)) ∨
              ∃ l' fl, cavity m sphere bad cap lonmax base ipnul shell flag =
                  .ret (if g.isreq then -(l'.length : Int) else l'.length) l' fl ∧
                CInv m used base g.l shell.length l' fl ∧ (∀ k ∈ l', m.req k = false) ∧
                (∀ k i, Outer m.A l' k i → bad k i = false) ∧
                ((∀ k ∈ g.l, m.req k = false) → (∀ k i, Outer m.A g.l k i → bad k i = false) →
                  l' = g.l))))) := by
  unfold cavity
  by_cases h1 : shell.length < 1
  · rw [if_pos h1]
    exact .inl ⟨flag, rfl, .inl (List.length_eq_zero_iff.1 (by omega))⟩
  rw [if_neg h1]
  have hne : shell ≠ [] := fun h => h1 (by simp [h])
  by_cases h2 : ipnul = true
  · rw [if_pos h2]
    exact .inl ⟨flag, rfl, .inr (.inl h2)⟩
  rw [if_neg h2]
  rw [Bool.not_eq_true] at h2
  have hms := mark_spec (m := m) (base := base) (tref := m.tref (shell.headD 0 / 6)) shell flag
  have hmf := mark_false (m := m) (base := base) (tref := m.tref (shell.headD 0 / 6)) shell flag
  generalize mark m base (m.tref (shell.headD 0 / 6)) shell flag = R at hms hmf
  match R, hms, hmf with
  | (false, fl), _, hmf => exact .inl ⟨fl, rfl, .inr (.inr (hmf rfl))⟩
  | (true, fl), hms, _ =>
    obtain ⟨e1, e2, e3⟩ := hms rfl
    refine .inr ⟨hne, h2, e2, e3, ?_⟩
    have I := H.ginv (sphere := sphere) e1
    simp only at I
    rcases growLoop_spec (lonmax := lonmax) (cap := cap) H.mesh H.faces H.cap (max lonmax 1) 0 _ I
      (by simpa using (by omega : 0 < shell.length)) (by simpa using H.room) (by simp) (by simp)
      (by simp) with ⟨g, hg, hbig, I'⟩ | ⟨g, hg, I', hsm, hbl⟩
    · exact ⟨g, I', .inl ⟨hbig, by simp only [hg]⟩⟩
    · refine ⟨g, I', .inr ⟨hsm, hbl, ?_⟩⟩
      simp only [hg]
      have hl : (shell.map (· / 6)).length = shell.length := by simp
      have hC := I'.cinv
      rw [hl] at hC
      have hid := correct_id (bad := bad) H.mesh I'.flag I'.sub
      rcases correct_spec (bad := bad) H.mesh H.base I'.sub (g.l.length + 1) g.l g.flag hC (by omega)
        with ⟨l', fl', hc, C, n, hn⟩ | ⟨l', fl', hc, C, hr, hb⟩
      · refine .inl ⟨l', fl', ?_, C, n, hn⟩
        simp only [hc]
      · refine .inr ⟨l', fl', ?_, C, hr, hb, fun h1 h2 => ?_⟩
        · simp only [hc]
        · have := hid h1 h2 shell.length g.l.length
          rw [hc] at this
          injection this

theorem cavity_pos (H : Pre m used cap lonmax base a b shell flag) {r : Int} {l : List Nat}
    {fl : Nat → Nat} (h : cavity m sphere bad cap lonmax base ipnul shell flag = .ret r l fl)
    (hr : 0 < r) :
    (m.opnbdy = false → ∀ x ∈ shell, m.tref (x / 6) = m.tref (shell.headD 0 / 6)) ∧
    (m.opnbdy = true → ∀ x ∈ shell, m.bdy (x / 6) (ifar (x % 6)).1 = false ∧
        m.bdy (x / 6) (ifar (x % 6)).2 = false) ∧
    r = l.length ∧ ∃ g, GInv m used sphere base (shell.map (· / 6)) g ∧ g.isreq = false ∧
      g.l.length + 3 ≤ lonmax ∧ (∀ k ∈ g.l, ∀ i < 4, Blocked m sphere g.l (link m.A k i)) ∧
      CInv m used base g.l shell.length l fl ∧ (∀ k ∈ l, m.req k = false) ∧
      (∀ k i, Outer m.A l k i → bad k i = false) ∧
      ((∀ k ∈ g.l, m.req k = false) → (∀ k i, Outer m.A g.l k i → bad k i = false) → l = g.l) := by
  rcases cavity_spec (sphere := sphere) (bad := bad) (ipnul := ipnul) H with
    ⟨fl', h', _⟩ | ⟨_, _, e2, e3, g, I, ⟨_, h'⟩ | ⟨hs, hb, ⟨l', fl', h', _⟩ | ⟨l', fl', h', C, q1, q2, q3⟩⟩⟩
  · rw [h] at h'; injection h' with h1; omega
  · rw [h] at h'; injection h' with h1; omega
  · rw [h] at h'; injection h' with h1; omega
  · rw [h] at h'
    injection h' with h1 h2 h3
    subst h2 h3
    have hq : g.isreq = false := by
      cases hq : g.isreq
      · rfl
      · rw [hq, if_pos rfl] at h1; omega
    rw [hq] at h1
    exact ⟨e2, e3, by simpa using h1, g, I, hq, hs, hb, C, q1, q2, q3⟩

theorem edge_faces {v : List Nat} {a b e f : Nat} (hl : v.length = 4) (hnd : v.Nodup)
    (he : IsEdge v a b e) (hf : Thru v a b f) : f = (ifar e).1 ∨ f = (ifar e).2 := by
  match v, hl with
  | [x, y, z, w], _ =>
    obtain ⟨⟨n1, n2, n3, n4, n5, n6⟩, m1, m2, m3, m4, m5, m6⟩ := nodup4 hnd
    obtain ⟨he6, he⟩ := he
    obtain ⟨hf4, t1, t2⟩ := hf
    interval_cases e <;> interval_cases f <;> simp [ends, iare, ifar] at he t1 t2 ⊢ <;>
      (rcases he with ⟨rfl, rfl⟩ | ⟨rfl, rfl⟩ <;> simp_all)

/-- A face between two tetrahedra of the shell goes through the edge. -/
theorem shell_face (hm : Mesh m.A m.V used) (hnt : Colver.NoTwins m.A m.V used) {k f : Nat}
    (hk : used k) (hf : f < 4) (h0 : link m.A k f ≠ 0) (hh : Has (m.V k) a b)
    (hh' : Has (m.V (link m.A k f / 4)) a b) : Thru (m.V k) a b f := by
  obtain ⟨hu, _, _, hface⟩ := hm.adj.ok k hk f hf h0
  have hl := hm.len k hk
  have hl' := hm.len _ hu
  have h4 : link m.A k f % 4 < 4 := Nat.mod_lt _ (by decide)
  have key : ∀ c ∈ m.V (link m.A k f / 4), (m.V k).getD f 0 ≠ c := by
    intro c hc he
    have h1 : ((m.V (link m.A k f / 4) : List Nat) : Multiset Nat) = _ := (faceTri_add hl' h4).symm
    have h2 : c ∈ faceTri 0 (m.V (link m.A k f / 4)) (link m.A k f % 4) +
        {(m.V (link m.A k f / 4)).getD (link m.A k f % 4) 0} := by
      rw [← h1]; exact hc
    rw [Multiset.mem_add, Multiset.mem_singleton] at h2
    rcases h2 with h2 | h2
    · rw [hface] at h2
      have h3 : ((m.V k : List Nat) : Multiset Nat).Nodup := Multiset.coe_nodup.2 (hm.nd k hk)
      rw [← faceTri_add hl hf, Multiset.nodup_add] at h3
      exact Multiset.disjoint_left.1 h3.2.2 h2 (by rw [Multiset.mem_singleton, he])
    · exact hnt k hk f hf h0 (by rw [← h2, ← he])
  exact ⟨hf, key a hh'.a, key b hh'.b⟩

theorem isEdge_has {v : List Nat} {e : Nat} (hl : v.length = 4) (hnd : v.Nodup)
    (he : IsEdge v a b e) : Has v a b := by
  match v, hl with
  | [x, y, z, w], _ =>
    obtain ⟨⟨n1, n2, n3, n4, n5, n6⟩, m1, m2, m3, m4, m5, m6⟩ := nodup4 hnd
    obtain ⟨he6, he⟩ := he
    interval_cases e <;> simp [ends, iare] at he <;>
      rcases he with ⟨rfl, rfl⟩ | ⟨rfl, rfl⟩ <;> exact ⟨rfl, hnd, by assumption, by simp, by simp⟩

/-- Marks after the function: old, `base` or `base - 1`. -/
def Marks (base : Nat) (flag fl : Nat → Nat) : Prop :=
  ∀ k, fl k = flag k ∨ fl k = base ∨ fl k = base - 1

theorem Marks.upd {f0 fl : Nat → Nat} (h : Marks base f0 fl) (n : Nat) {v : Nat}
    (hv : v = base ∨ v = base - 1) : Marks base f0 (Mmg.Swap23.upd fl n v) := by
  intro k
  by_cases hk : k = n
  · simp only [Mmg.Swap23.upd, hk, if_true]; exact .inr hv
  · simp only [Mmg.Swap23.upd, hk, if_false]; exact h k

theorem mark_marks {tref : Int} {f0 : Nat → Nat} : ∀ (xs : List Nat) (fl : Nat → Nat),
    Marks base f0 fl → Marks base f0 (mark m base tref xs fl).2
  | [], _, h => h
  | x :: xs, fl, h => by
    have h' := h.upd (x / 6) (.inl rfl)
    unfold mark
    simp only
    split_ifs
    · exact h'
    · exact mark_marks xs _ h'
    · exact h'
    · exact mark_marks xs _ h'

theorem growFace_marks {f0 : Nat → Nat} {x : Nat} {g g' : G} (h : Marks base f0 g.flag)
    (e : growFace m sphere cap base x g = some g') : Marks base f0 g'.flag := by
  unfold growFace at e
  split_ifs at e <;> cases e
  all_goals first
    | exact h
    | exact h.upd _ (.inl rfl)

theorem growFaces_marks {f0 : Nat → Nat} {jel : Nat} : ∀ (is : List Nat) {g g' : G},
    Marks base f0 g.flag → growFaces m sphere cap base jel is g = some g' → Marks base f0 g'.flag
  | [], g, g', h, e => by cases e; exact h
  | i :: is, g, g', h, e => by
    unfold growFaces at e
    generalize hR : growFace m sphere cap base (link m.A jel i) g = R at e
    cases R with
    | none => cases e
    | some g1 => exact growFaces_marks is (growFace_marks h hR) e

theorem growLoop_marks {f0 : Nat → Nat} : ∀ (fuel ipil : Nat) {g : G}, Marks base f0 g.flag →
    ∀ g', growLoop m sphere cap lonmax base fuel ipil g = .big g' ∨
      growLoop m sphere cap lonmax base fuel ipil g = .ok g' → Marks base f0 g'.flag
  | 0, _, _, _, _, e => by rcases e with e | e <;> cases e
  | fuel + 1, ipil, g, h, g', e => by
    unfold growLoop at e
    generalize hR : growFaces m sphere cap base (g.l.getD ipil 0) [0, 1, 2, 3] g = R at e
    cases R with
    | none => rcases e with e | e <;> cases e
    | some g1 =>
      have h1 := growFaces_marks _ h hR
      simp only at e
      split_ifs at e
      · rcases e with e | e <;> cases e; exact h1
      · exact growLoop_marks fuel _ h1 g' e
      · rcases e with e | e <;> cases e; exact h1

theorem correct_marks {f0 : Nat → Nat} {nedep : Nat} : ∀ (fuel : Nat) (l : List Nat) (fl : Nat → Nat),
    Marks base f0 fl → ∀ l' fl', correct m bad base nedep fuel l fl = .zero fl' ∨
      correct m bad base nedep fuel l fl = .ok l' fl' → Marks base f0 fl'
  | 0, _, _, _, _, _, e => by rcases e with e | e <;> cases e
  | fuel + 1, l, fl, h, l', fl', e => by
    unfold correct at e
    generalize scan m bad base fl l l.length = R at e
    cases R with
    | none => rcases e with e | e <;> cases e; exact h
    | some ipil =>
      have h1 := h.upd (l.getD ipil 0) (v := base - 1) (.inr rfl)
      simp only at e
      split_ifs at e
      · rcases e with e | e <;> cases e; exact h
      · exact correct_marks fuel _ _ h1 l' fl' e
      · rcases e with e | e <;> cases e; exact h1

/-! ### Properties -/

/-- **C65.** The function returns: the growth and the correction end, the list is never written
outside of its bounds. -/
theorem C65_total (H : Pre m used cap lonmax base a b shell flag) :
    ∃ r l fl, cavity m sphere bad cap lonmax base ipnul shell flag = .ret r l fl := by
  rcases cavity_spec (sphere := sphere) (bad := bad) (ipnul := ipnul) H with
    ⟨fl', h', _⟩ | ⟨_, _, e2, e3, g, I, ⟨_, h'⟩ | ⟨hs, hb, ⟨l', fl', h', _⟩ | ⟨l', fl', h', _⟩⟩⟩ <;>
  exact ⟨_, _, _, h'⟩

/-- **C65.** If the value `r` is positive, the list is a set of `r` tetrahedra of the mesh, those
with the mark `base`; it starts with the shell; the others are in the sphere of the vertex; there are
at most `MMG3D_LONMAX - 3` of them. -/
theorem C65_set (H : Pre m used cap lonmax base a b shell flag) {r : Int} {l : List Nat}
    {fl : Nat → Nat} (h : cavity m sphere bad cap lonmax base ipnul shell flag = .ret r l fl)
    (hr : 0 < r) :
    r = l.length ∧ l.length + 3 ≤ lonmax ∧ l.Nodup ∧ (∀ k ∈ l, used k) ∧
    (∀ k, used k → (fl k = base ↔ k ∈ l)) ∧
    l.take shell.length = shell.map (· / 6) ∧
    ∀ k ∈ l, k ∉ shell.map (· / 6) → sphere k = true := by
  obtain ⟨_, _, e1, g, I, _, hs, _, C, _⟩ := cavity_pos H h hr
  obtain ⟨ext, p1, p2, _⟩ := I.pre
  have ht := I.take
  rw [List.length_map] at ht
  refine ⟨e1, ?_, C.nd, fun k hk => I.sub k (C.sub k hk), C.flag, C.pre.trans ht, ?_⟩
  · have := (List.subperm_of_subset C.nd C.sub).length_le
    omega
  · intro k hk hks
    have := C.sub k hk
    rw [p1, List.mem_append] at this
    exact p2 k (this.resolve_left hks)

/-- **C65.** If the value is positive, every face of the surface of the cavity has passed the tests
and no tetrahedron of the cavity is required. -/
theorem C65_surface (H : Pre m used cap lonmax base a b shell flag) {r : Int} {l : List Nat}
    {fl : Nat → Nat} (h : cavity m sphere bad cap lonmax base ipnul shell flag = .ret r l fl)
    (hr : 0 < r) : (∀ k f, Outer m.A l k f → bad k f = false) ∧ ∀ k ∈ l, m.req k = false := by
  obtain ⟨_, _, e1, g, I, _, hs, _, C, q1, q2, _⟩ := cavity_pos H h hr
  exact ⟨q2, q1⟩

/-- **C65.** If the value is positive, there is no boundary face inside of the cavity. -/
theorem C65_boundary (H : Pre m used cap lonmax base a b shell flag)
    (hnt : Colver.NoTwins m.A m.V used) {r : Int} {l : List Nat} {fl : Nat → Nat}
    (h : cavity m sphere bad cap lonmax base ipnul shell flag = .ret r l fl) (hr : 0 < r) :
    ∀ k ∈ l, ∀ f < 4, m.bdy k f = true → Outer m.A l k f := by
  obtain ⟨e2, e3, e1, g, I, _, hs, _, C, _⟩ := cavity_pos H h hr
  intro k hk f hf hb
  by_cases h0 : link m.A k f = 0
  · exact ⟨hk, hf, .inl h0⟩
  by_cases hl : link m.A k f / 4 ∈ l
  · exfalso
    have hku := I.sub k (C.sub k hk)
    rcases I.ins k (C.sub k hk) f hf h0 (C.sub _ hl) with ⟨s1, s2⟩ | h'
    · obtain ⟨x, hx, hxk⟩ := List.mem_map.1 s1
      obtain ⟨y, hy, hyk⟩ := List.mem_map.1 s2
      cases ho : m.opnbdy
      · have : m.bdy k f = false := H.faces.same ho k hku f hf h0 (by
          rw [← hyk, e2 ho y hy, ← hxk, e2 ho x hx])
        rw [this] at hb; cases hb
      · have hyu := (H.list.ent y hy).1
        have hx' := (H.list.ent x hx).2
        have hy' := (H.list.ent y hy).2
        rw [hxk] at hx'
        rw [hyk] at hy' hyu
        have t := shell_face H.mesh hnt hku hf h0
          (isEdge_has (H.mesh.len _ hku) (H.mesh.nd _ hku) hx')
          (isEdge_has (H.mesh.len _ hyu) (H.mesh.nd _ hyu) hy')
        have := e3 ho x hx
        rw [hxk] at this
        rcases edge_faces (H.mesh.len _ hku) (H.mesh.nd _ hku) hx' t with he | he
        · rw [he, this.1] at hb; cases hb
        · rw [he, this.2] at hb; cases hb
    · rw [h'] at hb; cases hb
  · exact ⟨hk, hf, .inr hl⟩

/-- **C65.** If the value is positive, all the tetrahedra of the cavity have the same reference (with
open boundaries, if the list is connected around the edge). -/
theorem C65_reference (H : Pre m used cap lonmax base a b shell flag)
    (hc : m.opnbdy = true → ∀ x ∈ shell,
      Relation.ReflTransGen (fun k k' => Nbr m.A m.V a b k k' ∧ k ∈ shell.map (· / 6))
        (shell.headD 0 / 6) (x / 6)) {r : Int} {l : List Nat} {fl : Nat → Nat}
    (h : cavity m sphere bad cap lonmax base ipnul shell flag = .ret r l fl) (hr : 0 < r) :
    ∀ k ∈ l, ∀ k' ∈ l, m.tref k = m.tref k' := by
  obtain ⟨e2, e3, e1, g, I, _, hs, _, C, _⟩ := cavity_pos H h hr
  have hsh : ∀ x ∈ shell, m.tref (x / 6) = m.tref (shell.headD 0 / 6) := by
    cases ho : m.opnbdy
    · exact e2 ho
    · intro x hx
      have := hc ho x hx
      generalize x / 6 = k at this
      induction this with
      | refl => rfl
      | tail _ hn ih =>
        obtain ⟨⟨f, ht, h0, rfl⟩, hmem⟩ := hn
        rw [← ih]
        obtain ⟨y, hy, rfl⟩ := List.mem_map.1 hmem
        obtain ⟨hu, he⟩ := H.list.ent y hy
        have hb := e3 ho y hy
        by_contra hcon
        have hd := H.faces.diff _ hu f ht.1 h0 (fun h => hcon h.symm)
        rcases edge_faces (H.mesh.len _ hu) (H.mesh.nd _ hu) he ht with hf | hf
        · rw [hf, hb.1] at hd; cases hd
        · rw [hf, hb.2] at hd; cases hd
  have all : ∀ k ∈ l, m.tref k = m.tref (shell.headD 0 / 6) := by
    intro k hk
    obtain ⟨k0, h1, h2⟩ := I.ref k (C.sub k hk)
    obtain ⟨x, hx, rfl⟩ := List.mem_map.1 h1
    rw [h2, hsh x hx]
  intro k hk k' hk'
  rw [all k hk, all k' hk']

/-- **C65.** The growth is complete: before the correction no face of the cavity can be crossed any
more; the correction does nothing if all the faces pass the tests. -/
theorem C65_maximal (H : Pre m used cap lonmax base a b shell flag) {r : Int} {l : List Nat}
    {fl : Nat → Nat} (h : cavity m sphere bad cap lonmax base ipnul shell flag = .ret r l fl)
    (hr : 0 < r) :
    ∃ l1, l1.Nodup ∧ (∀ k ∈ l1, used k) ∧ l1.take shell.length = shell.map (· / 6) ∧
      (∀ k ∈ l1, ∀ i < 4, Blocked m sphere l1 (link m.A k i)) ∧ (∀ k ∈ l, k ∈ l1) ∧
      ((∀ k ∈ l1, m.req k = false) → (∀ k i, Outer m.A l1 k i → bad k i = false) → l = l1) := by
  obtain ⟨_, _, e1, g, I, _, hs, hb, C, q1, q2, q3⟩ := cavity_pos H h hr
  have ht := I.take
  rw [List.length_map] at ht
  exact ⟨g.l, I.nd, I.sub, ht, hb, C.sub, q3⟩

/-- **C65.** Reasons of a refusal: no list; unused point; two references, or a boundary face, around
the edge; too many tetrahedra; a required tetrahedron in the sphere; or, for some set of tetrahedra
that contains the shell, one of the shell, or the first one behind it, is required or has a face on
the surface that does not pass the tests. -/
theorem C65_refused (H : Pre m used cap lonmax base a b shell flag) {r : Int} {l : List Nat}
    {fl : Nat → Nat} (h : cavity m sphere bad cap lonmax base ipnul shell flag = .ret r l fl)
    (hr : r ≤ 0) :
    shell = [] ∨ ipnul = true ∨
    (m.opnbdy = false ∧ ∃ x ∈ shell, m.tref (x / 6) ≠ m.tref (shell.headD 0 / 6)) ∨
    (m.opnbdy = true ∧ ∃ x ∈ shell, m.bdy (x / 6) (ifar (x % 6)).1 = true ∨
      m.bdy (x / 6) (ifar (x % 6)).2 = true) ∨
    ∃ l1, l1.Nodup ∧ (∀ k ∈ l1, used k) ∧ l1.take shell.length = shell.map (· / 6) ∧
      (∀ k ∈ l1, k ∉ shell.map (· / 6) → sphere k = true) ∧
      (lonmax < l1.length + 3 ∨ (∃ k ∈ l1, k ∉ shell.map (· / 6) ∧ m.req k = true) ∨
        ∃ n ≤ shell.length, n < l1.length ∧ (m.req (l1.getD n 0) = true ∨
          ∃ i, Outer m.A l1 (l1.getD n 0) i ∧ bad (l1.getD n 0) i = true)) := by
  have facts : ∀ g : G, GInv m used sphere base (shell.map (· / 6)) g → ∀ l' : List Nat, (∀ k ∈ l', k ∈ g.l) →
      ∀ k ∈ l', k ∉ shell.map (· / 6) → sphere k = true := by
    intro g I l' hsub k hk hks
    obtain ⟨ext, p1, p2, _⟩ := I.pre
    have := hsub k hk
    rw [p1, List.mem_append] at this
    exact p2 k (this.resolve_left hks)
  have take : ∀ g : G, GInv m used sphere base (shell.map (· / 6)) g →
      g.l.take shell.length = shell.map (· / 6) := by
    intro g I
    have ht := I.take
    rwa [List.length_map] at ht
  rcases cavity_spec (sphere := sphere) (bad := bad) (ipnul := ipnul) H with
    ⟨fl', h', hx⟩ | ⟨hne, _, e2, e3, g, I, ⟨hbig, h'⟩ | ⟨hs, hb, ⟨l', fl', h', C, hn⟩ |
      ⟨l', fl', h', C, q1, q2, q3⟩⟩⟩
  · rcases hx with hx | hx | hx | hx
    · exact .inl hx
    · exact .inr (.inl hx)
    · exact .inr (.inr (.inl hx))
    · exact .inr (.inr (.inr (.inl hx)))
  · exact .inr (.inr (.inr (.inr ⟨g.l, I.nd, I.sub, take g I, facts g I g.l fun _ h => h, .inl hbig⟩)))
  · exact .inr (.inr (.inr (.inr ⟨l', C.nd, fun k hk => I.sub k (C.sub k hk), C.pre.trans (take g I),
      facts g I l' C.sub, .inr (.inr hn)⟩)))
  · rw [h] at h'
    injection h' with h1 h2 h3
    refine .inr (.inr (.inr (.inr ⟨g.l, I.nd, I.sub, take g I, facts g I g.l fun _ h => h, .inr (.inl ?_)⟩)))
    obtain ⟨ext, p1, p2, p3⟩ := I.pre
    have hq : g.isreq = true := by
      cases hq : g.isreq
      · rw [hq] at h1
        have := C.len
        have : shell.length ≠ 0 := fun h => hne (List.length_eq_zero_iff.1 h)
        simp at h1
        omega
      · rfl
    rw [hq] at p3
    obtain ⟨k, hk, hkr⟩ := List.any_eq_true.1 p3.symm
    refine ⟨k, by rw [p1]; exact List.mem_append_right _ hk, fun hks => ?_, hkr⟩
    have := I.nd
    rw [p1, List.nodup_append] at this
    exact this.2.2 k hks k hk rfl

/-- **C65.** Whatever the answer, only the marks `base` and `base - 1` are written: a later search,
with a larger `base`, finds fresh marks again. -/
theorem C65_marks {r : Int} {l : List Nat} {fl : Nat → Nat}
    (h : cavity m sphere bad cap lonmax base ipnul shell flag = .ret r l fl) :
    (∀ k, fl k = flag k ∨ fl k = base ∨ fl k = base - 1) ∧
    ((∀ k, flag k < base) → ∀ k, fl k < base + 1) := by
  have key : Marks base flag fl := by
    have h0 : Marks base flag flag := fun k => .inl rfl
    unfold cavity at h
    split_ifs at h
    · cases h; exact h0
    · cases h; exact h0
    have h1 := mark_marks (m := m) (tref := m.tref (shell.headD 0 / 6)) shell flag h0
    generalize mark m base (m.tref (shell.headD 0 / 6)) shell flag = R at h h1
    obtain ⟨b', fl1⟩ := R
    cases b' with
    | false => cases h; exact h1
    | true =>
      simp only at h h1
      have h2 := growLoop_marks (m := m) (sphere := sphere) (cap := cap) (lonmax := lonmax)
        (max lonmax 1) 0 (g := ⟨shell.map (· / 6), fl1, false⟩) h1
      generalize growLoop m sphere cap lonmax base (max lonmax 1) 0
        ⟨shell.map (· / 6), fl1, false⟩ = R at h h2
      cases R with
      | ub => cases h
      | loop => cases h
      | big g => cases h; exact h2 _ (.inl rfl)
      | ok g =>
        have h3 := correct_marks (m := m) (bad := bad) (nedep := shell.length) (g.l.length + 1) g.l
          g.flag (h2 g (.inr rfl))
        simp only at h
        generalize correct m bad base shell.length (g.l.length + 1) g.l g.flag = R at h h3
        cases R with
        | loop => cases h
        | zero fl2 => cases h; exact h3 [] _ (.inl rfl)
        | ok l2 fl2 => cases h; exact h3 _ _ (.inr rfl)
  refine ⟨key, fun hb k => ?_⟩
  have := hb k
  rcases key k with e | e | e <;> omega

end

/-! ### Insertion in the cavity -/

/-- The mesh of `MMG5_delone` as it is seen by these functions. -/
def ofSt (req : Nat → Bool) (opnbdy : Bool) (s : St) : M where
  A := s.A
  V := s.V
  tref := s.tref
  req := req
  bdy := fun k f => decide (s.xt k ≠ 0) && hasB ((s.X (s.xt k)).ftag f) BDY
  opnbdy := opnbdy

section
variable {K : Type} [Field K] [LinearOrder K] [IsStrictOrderedRing K]

/-- A face that passes the test is seen by the point on its positive side. -/
def Sound (c : Nat → Pt K) (V : Nat → List Nat) (used : Nat → Prop) (ip : Nat)
    (bad : Nat → Nat → Bool) : Prop :=
  ∀ k, used k → ∀ f < 4, bad k f = false → 0 < volOf c ((V k).set f ip)

theorem dd_eq (c : Nat → Pt K) {v : List Nat} (hl : v.length = 4) {f : Nat} (hf : f < 4) (ip : Nat) :
    (ddOf c v f ip).1 = volOf c (v.set f ip) := by
  rw [vol_face c hl hf]
  simp only [ddOf, vol]
  ring

/-- The isotropic test. -/
theorem sound_iso (c : Nat → Pt K) {V : Nat → List Nat} {used : Nat → Prop}
    (hl : ∀ k, used k → (V k).length = 4) (ip : Nat) {volmin eps2 : K} (hv : 0 < volmin) :
    Sound c V used ip (badIso c V ip volmin eps2) := by
  intro k hk f hf hb
  rw [← dd_eq c (hl k hk) hf]
  unfold badIso at hb
  generalize ddOf c (V k) f ip = R at hb
  obtain ⟨dd, v1, v2, v3⟩ := R
  simp only at hb ⊢
  by_cases h : dd < volmin
  · rw [if_pos h] at hb; cases hb
  · exact lt_of_lt_of_le hv (not_lt.1 h)

theorem sqlen_pos {p q r t : Pt K} (h : vol t p q r ≠ 0) :
    0 < sqlen q p ∧ 0 < sqlen r p ∧ 0 < sqlen q r := by
  have key : ∀ x y : Pt K, ¬ 0 < sqlen x y → x.x = y.x ∧ x.y = y.y ∧ x.z = y.z := by
    intro x y hn
    unfold sqlen at hn
    have h1 := mul_self_nonneg (x.x - y.x)
    have h2 := mul_self_nonneg (x.y - y.y)
    have h3 := mul_self_nonneg (x.z - y.z)
    have e1 : (x.x - y.x) * (x.x - y.x) = 0 := by linarith
    have e2 : (x.y - y.y) * (x.y - y.y) = 0 := by linarith
    have e3 : (x.z - y.z) * (x.z - y.z) = 0 := by linarith
    exact ⟨sub_eq_zero.1 (mul_self_eq_zero.1 e1), sub_eq_zero.1 (mul_self_eq_zero.1 e2),
      sub_eq_zero.1 (mul_self_eq_zero.1 e3)⟩
  refine ⟨?_, ?_, ?_⟩ <;> by_contra hc <;> obtain ⟨h1, h2, h3⟩ := key _ _ hc <;> apply h <;>
    simp only [vol, h1, h2, h3] <;> ring

/-- The anisotropic test, for tetrahedra with a volume; about the square root only its sign is
needed. -/
theorem sound_ani (sqrt : K → K) (hsq : ∀ t, 0 < t → 0 < sqrt t) (met : Nat → Nat → K)
    (c : Nat → Pt K) {V : Nat → List Nat} {used : Nat → Prop}
    (hl : ∀ k, used k → (V k).length = 4) (hpos : ∀ k, used k → 0 < volOf c (V k)) (ip : Nat)
    {volmin eps2 epsok : K} (hv : 0 < volmin) :
    Sound c V used ip (badAni sqrt met c V ip volmin eps2 epsok) := by
  intro k hk f hf hb
  rw [← dd_eq c (hl k hk) hf]
  have hvol : volOf c ((V k).set f ((V k).getD f 0)) ≠ 0 := by
    have : (V k).set f ((V k).getD f 0) = V k := by
      rw [List.getD_eq_getElem?_getD, List.getElem?_eq_getElem (by rw [hl k hk]; exact hf)]
      simp
    rw [this]
    exact (hpos k hk).ne'
  rw [vol_face c (hl k hk) hf] at hvol
  obtain ⟨p1, p2, p3⟩ := sqlen_pos hvol
  unfold badAni at hb
  generalize ddOf c (V k) f ip = R at hb
  obtain ⟨dd, v1, v2, v3⟩ := R
  simp only at hb ⊢
  have hs := hsq _ (mul_pos (mul_pos p1 p2) p3)
  split_ifs at hb with h
  exact lt_of_lt_of_le (mul_pos hv hs) (not_lt.1 h)

variable {s : St} {used : Nat → Prop} {req : Nat → Bool} {opnbdy : Bool} {sphere : Nat → Bool}
  {bad : Nat → Nat → Bool} {cap lonmax base a b ip : Nat} {shell : List Nat} {new : Nat → Nat}
  {g : Option Nat} {room : Nat → Bool} {c : Nat → Pt K}

/-- Situation at the call of `MMG5_delone` after a success of the search of the cavity. -/
theorem sit_of (H : Pre (ofSt req opnbdy s) used cap lonmax base a b shell s.flag)
    (h0 : ∀ k, used k → ∀ x ∈ s.V k, x ≠ 0) (hip : ∀ k, used k → ip ∉ s.V k)
    (hnew : ∀ n, Fresh new used n) {r : Int} {l : List Nat} {fl : Nat → Nat}
    (h : cavity (ofSt req opnbdy s) sphere bad cap lonmax base false shell s.flag = .ret r l fl)
    (hr : 0 < r) : Sit { s with flag := fl } used base ip l new := by
  obtain ⟨_, _, h3, h4, h5, _⟩ := C65_set H h hr
  exact ⟨H.mesh, ⟨h3, h4, h5⟩, fun k hk => h0 k (h4 k hk), fun k hk => hip k (h4 k hk), hnew _⟩

/-- **C65.** Insertion of a vertex: if the tetrahedra have positive volumes and do not overlap, a
cavity found by the function is a correct place for the insertion.  The surface of the cavity has no
edge on more than two faces, thus (C64) the result is a valid oriented mesh; all its tetrahedra have
positive volumes; the volume of the cavity is kept. -/
theorem C65_insert (H : Pre (ofSt req opnbdy s) used cap lonmax base a b shell s.flag)
    (h0 : ∀ k, used k → ∀ x ∈ s.V k, x ≠ 0) (hip : ∀ k, used k → ip ∉ s.V k)
    (hnew : ∀ n, Fresh new used n) (ho : Oriented s.A s.V used)
    (hpos : ∀ k, used k → 0 < volOf c (s.V k)) (hno : NoOverlap c s.V used)
    (hbad : Sound c s.V used ip bad) {r : Int} {l : List Nat} {fl : Nat → Nat}
    (h : cavity (ofSt req opnbdy s) sphere bad cap lonmax base false shell s.flag = .ret r l fl)
    (hr : 0 < r) {s' : St} {n : Nat}
    (hd : delone lonmax g room new base ip l { s with flag := fl } = .done s' n) :
    Mesh s'.A s'.V (After used l new n) ∧ Oriented s'.A s'.V (After used l new n) ∧
    (∀ k, After used l new n k → 0 < volOf c (s'.V k)) ∧
    ∑ j ∈ Finset.range n, volOf c (s'.V (new j)) = (l.map fun k => volOf c (s.V k)).sum := by
  have S := sit_of H h0 hip hnew h hr
  obtain ⟨_, _, _, hsub, _⟩ := C65_set H h hr
  obtain ⟨hsurf, _⟩ := C65_surface H h hr
  have hvis : ∀ k f, Outer s.A l k f → 0 < volOf c ((s.V k).set f ip) := fun k f hk =>
    hbad k (hsub k hk.1) f hk.2.1 (hsurf k f hk)
  have hp : NoPinch s.A s.V l := noPinch (ip := ip) H.mesh ho hsub c (fun k hk => hpos k (hsub k hk)) hno hvis
  obtain ⟨_, ⟨face, hN, hf⟩, hrest, _⟩ := C64_tets S hd
  refine ⟨C64_mesh S hp hd, C64_oriented S hp ho hd, ?_, C64_volume S ho c hd⟩
  rintro k (⟨hk, hkl⟩ | ⟨j, hj, rfl⟩)
  · rw [(hrest k hk hkl).1]; exact hpos k hk
  · rw [(hf j hj).1]; exact hvis _ _ (hN.mem j hj)

/-- **C65.** No boundary face is lost by the insertion: each one is still there, with the same
vertices, reference and tag. -/
theorem C65_insert_boundary (H : Pre (ofSt req opnbdy s) used cap lonmax base a b shell s.flag)
    (hnt : Colver.NoTwins s.A s.V used)
    (h0 : ∀ k, used k → ∀ x ∈ s.V k, x ≠ 0) (hip : ∀ k, used k → ip ∉ s.V k)
    (hnew : ∀ n, Fresh new used n) (hS : Slots s used) {r : Int} {l : List Nat} {fl : Nat → Nat}
    (h : cavity (ofSt req opnbdy s) sphere bad cap lonmax base false shell s.flag = .ret r l fl)
    (hr : 0 < r) {s' : St} {n : Nat}
    (hd : delone lonmax g room new base ip l { s with flag := fl } = .done s' n) :
    ∀ k, used k → ∀ f < 4, hasB (fd s k f).2 BDY = true →
      ∃ k', After used l new n k' ∧ ∃ f' < 4, faceTri 0 (s'.V k') f' = faceTri 0 (s.V k) f ∧
        fd s' k' f' = fd s k f := by
  have S := sit_of H h0 hip hnew h hr
  obtain ⟨_, _, _, hsub, _⟩ := C65_set H h hr
  have hS' : Slots { s with flag := fl } used := ⟨hS.le, hS.inj, hS.blank⟩
  obtain ⟨_, ⟨face, hN, hf⟩, hrest⟩ := C64_records S hS' hd
  have hrestV := (C64_tets S hd).2.2.1
  intro k hk f hf4 hb
  by_cases hkl : k ∈ l
  · have hx : s.xt k ≠ 0 := by
      intro hx
      simp [fd, hx, hasB] at hb
    have hbd : (ofSt req opnbdy s).bdy k f = true := by
      simp only [ofSt, fd, hx, if_false, ne_eq, not_false_eq_true, decide_true, Bool.true_and] at hb ⊢
      exact hb
    have ho := C65_boundary H hnt h hr k hkl f hf4 hbd
    obtain ⟨j, hj, hfj⟩ := hN.surj (k, f) ho
    obtain ⟨e1, e2, _⟩ := hf j hj
    rw [hfj] at e1 e2
    refine ⟨new j, .inr ⟨j, hj, rfl⟩, f, hf4, ?_, ?_⟩
    · rw [e1]; exact faceTri_set_self (H.mesh.len k hk) hf4 ip
    · rw [e2 f hf4, if_pos rfl]; rfl
  · refine ⟨k, .inl ⟨hk, hkl⟩, f, hf4, ?_, ?_⟩
    · rw [(hrestV k hk hkl).1]
    · rw [((hrest k hk hkl).1 f hf4).1]; rfl

end

/-! ### The hypotheses can hold together -/

namespace Ex

/-- Three tetrahedra around the edge `1 2` and a fourth one on a face of the first. -/
def V : Nat → List Nat
  | 1 => [1, 2, 3, 4]
  | 2 => [1, 2, 4, 5]
  | 3 => [1, 2, 5, 3]
  | 4 => [1, 4, 3, 6]
  | _ => [0, 0, 0, 0]

def A (i : Nat) : Nat := [0, 0, 19, 11, 14, 0, 0, 15, 6, 0, 0, 7, 10, 0, 0, 0, 5].getD i 0

def used (k : Nat) : Prop := k = 1 ∨ k = 2 ∨ k = 3 ∨ k = 4

def c : Nat → Pt ℚ
  | 1 => ⟨0, 0, -1⟩
  | 2 => ⟨0, 0, 1⟩
  | 3 => ⟨1, 0, 0⟩
  | 4 => ⟨0, 1, 0⟩
  | 5 => ⟨-1, -1, 0⟩
  | 6 => ⟨1, 1, -1⟩
  | _ => ⟨0, 0, 0⟩

def x1 : XT := { XT.zero with ref := fun f => if f = 0 then 10 else 0, ftag := fun f => if f = 0 then 16 else 0 }

def s : St where
  A := A
  V := V
  flag := fun _ => 3
  tref := fun _ => 2
  xt := fun k => if k = 1 then 1 else 0
  X := fun n => if n = 1 then x1 else XT.zero
  top := 1

def new (j : Nat) : Nat := j + 5

def m : M := ofSt (fun _ => false) false s

def bad := badIso c V 7 (1 / 10) (1 / 1000)

theorem pre : Pre m used 50 40 9 1 2 [6, 12, 18] s.flag := by
  refine ⟨⟨⟨?_, ?_⟩, ?_, ?_⟩, ⟨?_, ?_, ?_⟩, ⟨by decide, ?_⟩, ?_, by decide, by decide, by decide⟩
  · rintro k (rfl | rfl | rfl | rfl) <;> decide
  · rintro k (rfl | rfl | rfl | rfl) i hi h0 <;> interval_cases i <;>
      first
        | exact absurd rfl h0
        | exact ⟨.inl rfl, by decide, by decide, by decide⟩
        | exact ⟨.inr (.inl rfl), by decide, by decide, by decide⟩
        | exact ⟨.inr (.inr (.inl rfl)), by decide, by decide, by decide⟩
        | exact ⟨.inr (.inr (.inr rfl)), by decide, by decide, by decide⟩
  · rintro k (rfl | rfl | rfl | rfl) <;> rfl
  · rintro k (rfl | rfl | rfl | rfl) <;> decide
  · rintro k (rfl | rfl | rfl | rfl) f hf h0 <;> interval_cases f <;>
      first
        | exact absurd rfl h0
        | decide
  · rintro k (rfl | rfl | rfl | rfl) f hf h0 h <;> exact absurd rfl h
  · rintro - k (rfl | rfl | rfl | rfl) f hf h0 h <;> interval_cases f <;>
      first
        | exact absurd rfl h0
        | decide
  · intro x hx
    simp only [List.mem_cons, List.not_mem_nil, or_false] at hx
    rcases hx with rfl | rfl | rfl
    · exact ⟨.inl rfl, by decide, .inl (by decide)⟩
    · exact ⟨.inr (.inl rfl), by decide, .inl (by decide)⟩
    · exact ⟨.inr (.inr (.inl rfl)), by decide, .inl (by decide)⟩
  · intro k _
    simp [s]

theorem oriented : Oriented s.A s.V used := by
  rintro k (rfl | rfl | rfl | rfl) f hf h0 <;> interval_cases f <;>
    first
      | exact absurd rfl h0
      | exact ⟨0, by decide, by decide⟩
      | exact ⟨1, by decide, by decide⟩
      | exact ⟨2, by decide, by decide⟩

theorem noTwins : Colver.NoTwins s.A s.V used := by
  rintro k (rfl | rfl | rfl | rfl) f hf h0 <;> interval_cases f <;>
    first
      | exact absurd rfl h0
      | decide

theorem pos : ∀ k, used k → 0 < volOf c (s.V k) := by
  rintro k (rfl | rfl | rfl | rfl) <;> decide +kernel

theorem noOverlap : NoOverlap c s.V used := by
  rintro k k' (rfl | rfl | rfl | rfl) (rfl | rfl | rfl | rfl) hne x ⟨w, hw, h1, hx, hy, hz⟩
    ⟨w', hw', h1', hx', hy', hz'⟩ <;>
    first
      | exact hne rfl
      | (simp [s, V, c] at hw h1 hx hy hz hw' h1' hx' hy' hz'
         linarith)

theorem slots : Slots s used := by
  refine ⟨?_, ?_, ?_⟩
  · rintro k (rfl | rfl | rfl | rfl) <;> decide
  · rintro k k' (rfl | rfl | rfl | rfl) (rfl | rfl | rfl | rfl) <;> simp [s]
  · intro n hn
    have : n ≠ 1 := by
      rintro rfl
      exact absurd hn (by decide)
    simp [s, this, XT.zero]

/-- The cavity takes the fourth tetrahedron too, if the sphere test accepts it. -/
theorem found : ∃ fl, cavity m (fun _ => true) bad 50 40 9 false [6, 12, 18] s.flag =
    .ret 4 [1, 2, 3, 4] fl := by
  have h : (match cavity m (fun _ => true) bad 50 40 9 false [6, 12, 18] s.flag with
      | .ret r l _ => decide (r = 4) && decide (l = [1, 2, 3, 4])
      | _ => false) = true := by
    decide +kernel
  generalize cavity m (fun _ => true) bad 50 40 9 false [6, 12, 18] s.flag = R at h
  cases R with
  | ub => cases h
  | loop => cases h
  | ret r l fl =>
    simp only [Bool.and_eq_true, decide_eq_true_eq] at h
    exact ⟨fl, by rw [h.1, h.2]⟩

/-- All the hypotheses of `C65_insert` hold together. -/
example : ∃ fl, cavity m (fun _ => true) bad 50 40 9 false [6, 12, 18] s.flag =
    .ret 4 [1, 2, 3, 4] fl ∧
    ∀ s' n, delone 40 none (fun _ => true) new 9 7 [1, 2, 3, 4] { s with flag := fl } = .done s' n →
      Mesh s'.A s'.V (After used [1, 2, 3, 4] new n) := by
  obtain ⟨fl, h⟩ := found
  refine ⟨fl, h, fun s' n hd => (C65_insert (c := c) pre ?_ ?_ ?_ oriented pos noOverlap
    (sound_iso c (fun k hk => pre.mesh.len k hk) 7 (by norm_num)) h (by decide) hd).1⟩
  · rintro k (rfl | rfl | rfl | rfl) <;> decide
  · rintro k (rfl | rfl | rfl | rfl) <;> decide
  · intro n
    exact ⟨fun j _ => by simp [new], fun j _ => by simp [new, used], fun i _ j _ h => by simpa [new] using h⟩

/-- And the insertion succeeds: eight tetrahedra. -/
example : (match cavity m (fun _ => true) bad 50 40 9 false [6, 12, 18] s.flag with
    | .ret _ l fl =>
      (match delone 40 none (fun _ => true) new 9 7 l { s with flag := fl } with
      | .done s' n => decide (n = 8) && decide ((List.range n).map (fun j => s'.V (new j)) =
          [[7, 2, 3, 4], [7, 2, 4, 5], [1, 7, 4, 5], [7, 2, 5, 3], [1, 7, 5, 3], [7, 4, 3, 6],
            [1, 7, 3, 6], [1, 4, 7, 6]])
      | _ => false)
    | _ => false) = true := by
  decide +kernel

/-- With a sphere test that refuses it the cavity is the shell. -/
example : (match cavity m (fun _ => false) bad 50 40 9 false [6, 12, 18] s.flag with
    | .ret r l _ => decide (r = 3) && decide (l = [1, 2, 3])
    | _ => false) = true := by
  decide +kernel

/-- A point that does not see the faces is refused. -/
example : (match cavity m (fun _ => true) (badIso c V 6 (1 / 10) (1 / 1000)) 50 40 9 false [6, 12, 18]
      s.flag with
    | .ret r _ _ => decide (r = 0)
    | _ => false) = true := by
  decide +kernel

end Ex

end Mmg.Cavity
