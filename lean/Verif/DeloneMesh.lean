/-
  The mesh after the insertion of a vertex: vertices, links, orientation.
-/
import Verif.DeloneSurf
import Verif.Reglue

namespace Mmg.Delone

open Mmg.Split3 Mmg.Swap23 Mmg.Shell Mmg.Hash

/-! ### Removal of the cavity -/

theorem del_spec (l : List Nat) (hl : ∀ k ∈ l, 1 ≤ k) (s : St) :
    (∀ k, (l.foldl delElt s).V k = if k ∈ l then [0, 0, 0, 0] else s.V k) ∧
    (∀ k, (l.foldl delElt s).xt k = if k ∈ l then 0 else s.xt k) ∧
    (∀ k i, 1 ≤ k → i < 4 → link (l.foldl delElt s).A k i = if k ∈ l then 0 else link s.A k i) ∧
    (l.foldl delElt s).X = s.X ∧ (l.foldl delElt s).top = s.top ∧
    (l.foldl delElt s).tref = s.tref ∧ (l.foldl delElt s).flag = s.flag := by
  induction l generalizing s with
  | nil => simp
  | cons e l ih =>
    obtain ⟨h1, h2, h3, h4, h5, h6, h7⟩ := ih (fun k hk => hl k (List.mem_cons_of_mem _ hk)) (delElt s e)
    have he := hl e (by simp)
    rw [List.foldl_cons]
    refine ⟨fun k => ?_, fun k => ?_, fun k i hk hi => ?_, h4, h5, h6, h7⟩
    · rw [h1]
      by_cases hkl : k ∈ l
      · simp [hkl]
      · by_cases hke : k = e <;> simp [hkl, hke, delElt, Swap23.upd]
    · rw [h2]
      by_cases hkl : k ∈ l
      · simp [hkl]
      · by_cases hke : k = e <;> simp [hkl, hke, delElt, Swap23.upd]
    · rw [h3 k i hk hi]
      by_cases hkl : k ∈ l
      · simp [hkl]
      · rw [if_neg hkl]
        by_cases hke : k = e
        · subst hke
          rw [if_pos (by simp)]
          unfold link delElt
          simp only
          rw [if_pos]
          interval_cases i <;> simp
        · rw [if_neg (by simp [hkl, hke])]
          unfold link delElt
          simp only
          rw [if_neg]
          unfold adjIdx
          omega

/-! ### Vertices of the new tetrahedra -/

theorem set_nodup {v : List Nat} {i ip : Nat} (hl : v.length = 4) (hnd : v.Nodup) (hip : ip ∉ v)
    (hi : i < 4) : (v.set i ip).Nodup := by
  match v, hl with
  | [a, b, c, d], _ =>
    simp only [List.mem_cons, List.not_mem_nil, or_false, not_or] at hip
    obtain ⟨ha, hb, hc, hd⟩ := hip
    obtain ⟨⟨n1, n2, n3, n4, n5, n6⟩, m1, m2, m3, m4, m5, m6⟩ := nodup4 hnd
    interval_cases i <;> simp [List.set, ha, hb, hc, hd, Ne.symm ha, Ne.symm hb, Ne.symm hc,
      Ne.symm hd, n1, n2, n3, n4, n5, n6]

/-- The new tetrahedron over an external face, around an edge of the face. -/
theorem set_has {v : List Nat} {a b i ip : Nat} (hip : ip ∉ v) (hh : Has v a b) (ht : Thru v a b i) :
    Has (v.set i ip) a b ∧ Thru (v.set i ip) a b (oth v a b i) ∧
    oth (v.set i ip) a b (oth v a b i) = i ∧ (v.set i ip).getD i 0 = ip := by
  have hi := ht.1
  have hget := getD_set_eq hh.len hi ip
  obtain ⟨e1, e2, e3, e4⟩ := face_thru hh ht
  have hnd := set_nodup hh.len hh.nd hip hi
  have hmem : ∀ x ∈ v, x ≠ v.getD i 0 → x ∈ v.set i ip := by
    intro x hx hxi
    obtain ⟨n, hn, rfl⟩ := List.getElem_of_mem hx
    have hni : i ≠ n := by
      intro h; subst h
      apply hxi
      rw [List.getD_eq_getElem?_getD, List.getElem?_eq_getElem hn]; rfl
    have : (v.set i ip)[n]? = some v[n] := by
      rw [List.getElem?_set_ne hni, List.getElem?_eq_getElem hn]
    exact List.mem_of_getElem? this
  have hha : Has (v.set i ip) a b :=
    ⟨by rw [List.length_set]; exact hh.len, hnd, hh.ne, hmem a hh.a (Ne.symm ht.2.1),
      hmem b hh.b (Ne.symm ht.2.2)⟩
  have hth : Thru (v.set i ip) a b (oth v a b i) :=
    ⟨e2.1, by rw [getD_set_ne (Ne.symm e4)]; exact e2.2.1,
      by rw [getD_set_ne (Ne.symm e4)]; exact e2.2.2⟩
  have hti : Thru (v.set i ip) a b i :=
    ⟨hi, by rw [hget]; exact fun h => hip (h ▸ hh.a), by rw [hget]; exact fun h => hip (h ▸ hh.b)⟩
  refine ⟨hha, hth, ?_, hget⟩
  obtain ⟨f1, f2, f3, f4⟩ := face_thru hha hth
  -- there are only two faces through the edge
  obtain ⟨_, _, _, _, _, _, _, _, hall, _, _⟩ := findEdge_spec hha
  rcases hall _ hth with h | h <;> rcases hall _ hti with h' | h' <;>
    rcases hall _ f2 with h'' | h'' <;> first
    | exact h''.trans h'.symm
    | exact absurd (h''.trans h.symm) f4
    | exact absurd (h.trans h'.symm) e4

section
variable {s0 : St} {used : Nat → Prop} {base ip : Nat} {l : List Nat} {new : Nat → Nat}

/-- What is known of the result. -/
structure Result (s0 : St) (used : Nat → Prop) (ip : Nat) (l : List Nat) (new : Nat → Nat)
    (E : List (Nat × Nat)) (s : St) : Prop where
  V : ∀ k, used k → k ∉ l → s.V k = s0.V k
  Vd : ∀ k ∈ l, s.V k = [0, 0, 0, 0]
  Vn : ∀ n d, E[n]? = some d → s.V (new n) = newV s0 ip d
  T : ∀ k, used k → s.tref k = s0.tref k
  Tn : ∀ n d, E[n]? = some d → s.tref (new n) = s0.tref d.1
  /-- the external face -/
  own : ∀ n d, E[n]? = some d → link s.A (new n) d.2 = link s0.A d.1 d.2
  back : ∀ n d, E[n]? = some d → link s0.A d.1 d.2 ≠ 0 →
    link s.A (link s0.A d.1 d.2 / 4) (link s0.A d.1 d.2 % 4) = 4 * new n + d.2
  /-- the internal faces -/
  pair : NoPinch s0.A s0.V l → ∀ n d, E[n]? = some d → ∀ n' d', E[n']? = some d' → d ≠ d' → ∀ a b,
    Has (s0.V d.1) a b → Thru (s0.V d.1) a b d.2 → Has (s0.V d'.1) a b → Thru (s0.V d'.1) a b d'.2 →
    link s.A (new n) (oth (s0.V d.1) a b d.2) = 4 * new n' + oth (s0.V d'.1) a b d'.2
  rest : ∀ k, used k → k ∉ l → ∀ i < 4, (link s0.A k i = 0 ∨ link s0.A k i / 4 ∉ l) →
    link s.A k i = link s0.A k i

theorem Sit.result (H : Sit s0 used base ip l new) {a : Acc}
    (I : MInv s0 ip new (extFaces s0 base l).length (extFaces s0 base l) a) :
    Result s0 used ip l new (extFaces s0 base l) (l.foldl delElt a.s) := by
  obtain ⟨dV, dx, dA, dX, dt, dT, dF⟩ := del_spec l (fun k hk => H.mesh.adj.pos k (H.cav.sub k hk)) a.s
  have hE : ∀ n d, (extFaces s0 base l)[n]? = some d →
      n < (extFaces s0 base l).length ∧ d.1 ∈ l ∧ used d.1 ∧ d.2 < 4 ∧
        (link s0.A d.1 d.2 = 0 ∨ link s0.A d.1 d.2 / 4 ∉ l) := by
    intro n d hn
    obtain ⟨hdl, hd4, ho⟩ := H.mem_ext.1 (List.mem_of_getElem? hn)
    exact ⟨(List.getElem?_eq_some_iff.1 hn).1, hdl, H.cav.sub _ hdl, hd4, ho⟩
  have hnl : ∀ n, n < (extFaces s0 base l).length → new n ∉ l := fun n hn h =>
    H.fresh.free n hn (H.cav.sub _ h)
  have hun : ∀ k, used k → ∀ j < (extFaces s0 base l).length, k ≠ new j := fun k hk j hj h =>
    H.fresh.free j hj (h ▸ hk)
  -- links through the table of events
  have cell : ∀ k i, 1 ≤ k → i < 4 → k ∉ l → link (l.foldl delElt a.s).A k i =
      (run ⟨fun _ => none, cells s0.A⟩ (evs s0 ip new (extFaces s0 base l))).B (4 * k + i) := by
    intro k i hk hi hkl
    rw [dA k i hk hi, if_neg hkl, ← I.G.cell (4 * k + i) (by omega)]
    simp [cells, show (4 * k + i) / 4 = k by omega, show (4 * k + i) % 4 = i by omega]
  have putEv : ∀ n d, (extFaces s0 base l)[n]? = some d →
      Ev.put (4 * new n + d.2) (link s0.A d.1 d.2) ∈ evs s0 ip new (extFaces s0 base l) ∧
      (link s0.A d.1 d.2 ≠ 0 → Ev.put (link s0.A d.1 d.2) (4 * new n + d.2) ∈
        evs s0 ip new (extFaces s0 base l)) := by
    intro n d hn
    refine ⟨(mem_evs s0 ip new).2 ⟨n, d, hn, by simp [faceEvs]⟩, fun h0 =>
      (mem_evs s0 ip new).2 ⟨n, d, hn, ?_⟩⟩
    simp only [faceEvs, List.mem_append]
    refine .inr (.inl ?_)
    rw [if_pos h0]; simp
  -- a write of a link is not changed afterwards
  have putB : ∀ x v, Ev.put x v ∈ evs s0 ip new (extFaces s0 base l) →
      (run ⟨fun _ => none, cells s0.A⟩ (evs s0 ip new (extFaces s0 base l))).B x = v := by
    have hnd := H.nd_at
    generalize evs s0 ip new (extFaces s0 base l) = es at hnd
    induction es using List.reverseRecOn with
    | nil => intro x v h; exact absurd h List.not_mem_nil
    | append_singleton es e ih =>
      rw [List.map_append, List.nodup_append] at hnd
      obtain ⟨nd1, _, dj⟩ := hnd
      have hfresh : e.at ∉ es.map Ev.at := fun hc => dj _ hc e.at (by simp) rfl
      have ih := ih nd1
      have hsome := (run_weak (cells s0.A) es).2
      rw [run_append]
      generalize run ⟨fun _ => none, cells s0.A⟩ es = s at ih hsome
      rw [show run s [e] = ev s e from rfl]
      intro x v hm
      rcases List.mem_append.1 hm with hm | hm
      · have hm' := hm
        have hx : x ≠ e.at := fun h => hfresh (h ▸ List.mem_map_of_mem (f := Ev.at) hm')
        cases e with
        | put y w =>
          have hx : x ≠ y := hx
          simp only [ev, Swap23.upd]; rw [if_neg hx]; exact ih x v hm'
        | dart κ y =>
          cases hM : s.M κ with
          | none => simp only [ev, hM]; exact ih x v hm'
          | some z =>
            have hz := hsome _ _ hM
            have hxz : x ≠ z := by
              intro h
              have : Ev.put x v = Ev.dart κ z := List.inj_on_of_nodup_map nd1 hm' hz h
              cases this
            simp only [ev, hM, Swap23.upd]
            have hx : x ≠ y := hx
            rw [if_neg hxz, if_neg hx]
            exact ih x v hm'
      · cases List.mem_singleton.1 hm
        simp [ev, Swap23.upd]
  refine ⟨?_, ?_, ?_, ?_, ?_, ?_, ?_, ?_, ?_⟩
  · intro k hk hkl
    rw [dV, if_neg hkl]
    exact I.V k (hun k hk)
  · intro k hk; rw [dV, if_pos hk]
  · intro n d hn
    rw [dV, if_neg (hnl n (hE n d hn).1)]
    exact I.Vn n d hn
  · intro k hk; rw [dT]; exact I.T k (hun k hk)
  · intro n d hn; rw [dT]; exact I.Tn n d hn
  · intro n d hn
    obtain ⟨h1, _, _, h4, _⟩ := hE n d hn
    rw [cell _ _ (H.fresh.pos n h1) h4 (hnl n h1)]
    exact putB _ _ (putEv n d hn).1
  · intro n d hn h0
    obtain ⟨h1, _, h3, h4, ho⟩ := hE n d hn
    obtain ⟨hu, _⟩ := H.mesh.adj.ok _ h3 _ h4 h0
    rw [cell _ _ (H.mesh.adj.pos _ hu) (Nat.mod_lt _ (by decide)) (ho.resolve_left h0),
      show 4 * (link s0.A d.1 d.2 / 4) + link s0.A d.1 d.2 % 4 = link s0.A d.1 d.2 by omega]
    exact putB _ _ ((putEv n d hn).2 h0)
  · intro hp n d hn n' d' hn' hne x y hh ht hh' ht'
    obtain ⟨h1, h2, _, h4, _⟩ := hE n d hn
    obtain ⟨h1', h2', _, h4', _⟩ := hE n' d' hn'
    have o1 := (edge_conv (H.ip _ h2) hh ht).1
    have o2 := (edge_conv (H.ip _ h2') hh' ht').1
    rw [cell _ _ (H.fresh.pos n h1) o1 (hnl n h1)]
    refine (run_spec _ (H.evOK hp)).pair (keyOf x y) _ _
      (H.dart_iff.2 ⟨n, d, x, y, hn, hh, ht, rfl, rfl⟩)
      (H.dart_iff.2 ⟨n', d', x, y, hn', hh', ht', rfl, rfl⟩) ?_
    intro h
    have : n = n' := H.fresh.inj n h1 n' h1' (by omega)
    subst this
    rw [hn] at hn'
    exact hne (Option.some.inj hn')
  · intro k hk hkl i hi hor
    have hk1 := H.mesh.adj.pos k hk
    rw [cell k i hk1 hi hkl, (run_weak _ _).1]
    · simp [cells, show (4 * k + i) / 4 = k by omega, show (4 * k + i) % 4 = i by omega]
    · intro hc
      obtain ⟨e, he, hat⟩ := List.mem_map.1 hc
      obtain ⟨n, d, hn, he⟩ := (mem_evs s0 ip new).1 he
      obtain ⟨h1, h2, h3, h4, ho⟩ := hE n d hn
      have hnew : ∀ j, j < 4 → 4 * new n + j ≠ 4 * k + i := by
        intro j hj h
        exact H.fresh.free n h1 ((show k = new n by omega) ▸ hk)
      simp only [faceEvs, List.mem_append, List.mem_singleton] at he
      rcases he with rfl | he | he
      · exact hnew _ h4 hat
      · split_ifs at he with h0
        · rw [List.mem_singleton] at he
          subst he
          simp only [Ev.at] at hat
          obtain ⟨_, _, hsym, _⟩ := H.mesh.adj.ok _ h3 _ h4 h0
          rw [hat, show (4 * k + i) / 4 = k by omega, show (4 * k + i) % 4 = i by omega] at hsym
          have hd1 := H.mesh.adj.pos _ h3
          rw [hsym] at hor
          rcases hor with h | h
          · omega
          · apply h; rw [show (4 * d.1 + d.2) / 4 = d.1 by omega]; exact h2
        · exact absurd he List.not_mem_nil
      · simp only [darts, List.mem_map, List.mem_filter] at he
        obtain ⟨j, ⟨hj, _⟩, rfl⟩ := he
        simp only [List.mem_cons, List.not_mem_nil, or_false] at hj
        exact hnew j (by omega) hat

/-- Everything about an internal face of a new tetrahedron. -/
theorem Sit.inner (H : Sit s0 used base ip l new) (hp : NoPinch s0.A s0.V l) {s : St}
    (R : Result s0 used ip l new (extFaces s0 base l) s) {n : Nat} {d : Nat × Nat}
    (hn : (extFaces s0 base l)[n]? = some d) {i : Nat} (hi : i < 4) (hid : i ≠ d.2) :
    ∃ n' d' a b, (extFaces s0 base l)[n']? = some d' ∧ d ≠ d' ∧
      Has (s0.V d.1) a b ∧ Thru (s0.V d.1) a b d.2 ∧ oth (s0.V d.1) a b d.2 = i ∧
      Has (s0.V d'.1) a b ∧ Thru (s0.V d'.1) a b d'.2 ∧ oth (s0.V d'.1) a b d'.2 < 4 ∧
      oth (s0.V d'.1) a b d'.2 ≠ d'.2 ∧
      link s.A (new n) i = 4 * new n' + oth (s0.V d'.1) a b d'.2 ∧
      link s.A (new n') (oth (s0.V d'.1) a b d'.2) = 4 * new n + i := by
  obtain ⟨hdl, hd4, hdo⟩ := H.mem_ext.1 (List.mem_of_getElem? hn)
  have hu := H.cav.sub _ hdl
  obtain ⟨f1, f2, f3⟩ := edge_spec (H.mesh.len _ hu) (H.mesh.nd _ hu) (H.ip _ hdl) hd4 hi hid
  generalize (edgeOf ((s0.V d.1).set d.2 ip) ip i).getD 0 0 = a at f1 f2 f3
  generalize (edgeOf ((s0.V d.1).set d.2 ip) ip i).getD 1 0 = b at f1 f2 f3
  obtain ⟨d', hne, ho', hh', ht'⟩ := surf_other H.mesh H.cav.sub ⟨hdl, hd4, hdo⟩ f1 f2
  obtain ⟨n', hn'⟩ := List.mem_iff_getElem?.1 (H.mem_ext.2 ho')
  have o2 := edge_conv (H.ip _ ho'.1) hh' ht'
  have p1 := R.pair hp n d hn n' d' hn' hne.symm a b f1 f2 hh' ht'
  have p2 := R.pair hp n' d' hn' n d hn hne a b hh' ht' f1 f2
  rw [f3] at p1 p2
  exact ⟨n', d', a, b, hn', hne.symm, f1, f2, f3, hh', ht', o2.1, o2.2.1, p1, p2⟩

theorem Sit.mesh' (H : Sit s0 used base ip l new) (hp : NoPinch s0.A s0.V l) {s : St}
    (R : Result s0 used ip l new (extFaces s0 base l) s) :
    Mesh s.A s.V (After used l new (extFaces s0 base l).length) := by
  set E := extFaces s0 base l with hEdef
  have hE : ∀ n d, E[n]? = some d → n < E.length ∧ d.1 ∈ l ∧ used d.1 ∧ d.2 < 4 ∧
        (link s0.A d.1 d.2 = 0 ∨ link s0.A d.1 d.2 / 4 ∉ l) := by
    intro n d hn
    obtain ⟨hdl, hd4, ho⟩ := H.mem_ext.1 (List.mem_of_getElem? hn)
    exact ⟨(List.getElem?_eq_some_iff.1 hn).1, hdl, H.cav.sub _ hdl, hd4, ho⟩
  have get : ∀ n, n < E.length → ∃ d, E[n]? = some d := fun n hn =>
    ⟨E[n], List.getElem?_eq_getElem hn⟩
  let src : Nat → Nat × Nat := fun k => Classical.epsilon fun d => ∃ n, E[n]? = some d ∧ k = new n
  have hsrc : ∀ n d, E[n]? = some d → src (new n) = d := by
    intro n d hn
    have : ∃ n', E[n']? = some (src (new n)) ∧ new n = new n' :=
      Classical.epsilon_spec (p := fun d => ∃ n', E[n']? = some d ∧ new n = new n') ⟨d, n, hn, rfl⟩
    obtain ⟨n', h1, h2⟩ := this
    have : n = n' := H.fresh.inj n (hE n d hn).1 n' (hE n' _ h1).1 h2
    subst this
    rw [hn] at h1
    exact (Option.some.inj h1).symm
  refine ⟨?_, ?_, ?_⟩
  · refine reglue H.mesh.adj (fun k => k ∈ l) (fun k => ∃ j < E.length, k = new j)
      (fun k i => i = (src k).2) (fun k _ => src k) H.cav.sub ?_ ?_ ?_ ?_ ?_ ?_
    · rintro k ⟨j, hj, rfl⟩
      exact ⟨H.fresh.pos j hj, fun h => absurd h (H.fresh.free j hj)⟩
    · rintro k i ⟨j, hj, rfl⟩ hi ho
      obtain ⟨d, hd⟩ := get j hj
      obtain ⟨_, h2, h3, h4, h5⟩ := hE j d hd
      rw [hsrc j d hd] at ho ⊢
      subst ho
      refine ⟨h2, h4, R.own j d hd, ?_, fun h0 => ?_⟩
      · rw [R.Vn j d hd]
        exact faceTri_set_self (H.mesh.len _ h3) hi ip
      · rw [R.own j d hd] at h0 ⊢
        exact ⟨h5.resolve_left h0, R.back j d hd h0⟩
    · rintro k i ⟨j, hj, rfl⟩ hi ho
      obtain ⟨d, hd⟩ := get j hj
      rw [hsrc j d hd] at ho
      obtain ⟨n', d', a, b, hn', hne, f1, f2, f3, hh', ht', o4, o5, p1, p2⟩ := H.inner hp R hd hi ho
      rw [p1]
      have e1 : (4 * new n' + oth (s0.V d'.1) a b d'.2) / 4 = new n' := by omega
      have e2 : (4 * new n' + oth (s0.V d'.1) a b d'.2) % 4 = oth (s0.V d'.1) a b d'.2 := by omega
      rw [e1, e2]
      refine ⟨⟨n', (hE n' d' hn').1, rfl⟩, ?_, p2, ?_⟩
      · intro h
        have := H.fresh.inj n' (hE n' d' hn').1 j hj h
        subst this
        rw [hd] at hn'
        exact hne (Option.some.inj hn')
      · rw [R.Vn _ _ hn', R.Vn _ _ hd]
        obtain ⟨g1, g2, g3, g4⟩ := set_has (ip := ip) (H.ip _ (hE _ _ hd).2.1) f1 f2
        obtain ⟨g1', g2', g3', g4'⟩ := set_has (ip := ip) (H.ip _ (hE _ _ hn').2.1) hh' ht'
        have q1 := (face_thru g1 g2).1
        have q2 := (face_thru g1' g2').1
        rw [g3, g4, f3] at q1
        rw [g3', g4'] at q2
        unfold newV
        rw [q1, q2]
    · intro e j he hj h0 hnl
      have ho : Outer s0.A l e j := ⟨he, hj, .inr hnl⟩
      obtain ⟨n, hn⟩ := List.mem_iff_getElem?.1 (H.mem_ext (d := (e, j)) |>.2 ho)
      refine ⟨new n, j, ⟨n, (hE n _ hn).1, rfl⟩, hj, ?_, ?_⟩
      · rw [hsrc n _ hn]
      · rw [hsrc n _ hn]
    · intro k hk hkl i hi hor
      exact R.rest k hk hkl i hi hor
    · intro k hk hkl; exact R.V k hk hkl
  · rintro k (⟨hk, hkl⟩ | ⟨j, hj, rfl⟩)
    · rw [R.V k hk hkl]; exact H.mesh.len k hk
    · obtain ⟨d, hd⟩ := get j hj
      rw [R.Vn j d hd, newV, List.length_set]
      exact H.mesh.len _ (hE j d hd).2.2.1
  · rintro k (⟨hk, hkl⟩ | ⟨j, hj, rfl⟩)
    · rw [R.V k hk hkl]; exact H.mesh.nd k hk
    · obtain ⟨d, hd⟩ := get j hj
      obtain ⟨_, h2, h3, h4, _⟩ := hE j d hd
      rw [R.Vn j d hd]
      exact set_nodup (H.mesh.len _ h3) (H.mesh.nd _ h3) (H.ip _ h2) h4

end

end Mmg.Delone
