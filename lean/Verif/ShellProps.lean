/-
  Properties of the shell of an edge (C59), of the change of edge tags around it (C60) and of the
  search of edge data around it (C61).

  Specification.
  * `Thru v na nb f`: face `f` (opposite to vertex `f`) of the tetrahedron `v` has both ends of the
    edge.
  * `Nbr A V na nb k k'`: `k'` is the neighbour of `k` by such a face.
  * `InShell A V start ia k`: `k` is reached from `start` through such faces, for the edge `ia` of
    `start`.
  * `IsEdge v na nb i`: local edge `i` of the tetrahedron `v` is the edge.
  * `Mesh A V used`: links are symmetric and conforming, each tetrahedron has four different
    vertices.
-/
import Verif.ShellRuns

namespace Mmg.Shell

open Mmg.Split3 Mmg.Swap23

def InShell (A : Nat → Nat) (V : Nat → List Nat) (start ia k : Nat) : Prop :=
  Relation.ReflTransGen (Nbr A V (ends (V start) ia).1 (ends (V start) ia).2) start k

def IsEdge (v : List Nat) (na nb i : Nat) : Prop :=
  i < 6 ∧ (ends v i = (na, nb) ∨ ends v i = (nb, na))

/-- Both sides of a face agree on whether it is a boundary face. -/
def TwoSided (m : M) (used : Nat → Prop) : Prop :=
  ∀ k, used k → ∀ f, f < 4 → link m.A k f ≠ 0 →
    m.bdy (link m.A k f / 4) (link m.A k f % 4) = m.bdy k f

section
variable {A : Nat → Nat} {V : Nat → List Nat} {used : Nat → Prop} {na nb : Nat}

/-- From a boundary face, all the tetrahedra are different. -/
theorem seq_inj_open (hm : Mesh A V used) {d : Nat × Nat} (h : Dart V used na nb d) {n : Nat}
    (ha : Alive A V na nb d n) (h0 : link A (rev V na nb d).1 (rev V na nb d).2 = 0) :
    ∀ i j, i ≤ n → j ≤ n → (seq A V na nb d i).1 = (seq A V na nb d j).1 → i = j := by
  apply seq_inj hm h ha
  intro i hi hn he
  have hb := seq_back hm h ha 0 i (by omega) (by rw [Nat.zero_add]; exact he.symm)
  match i with
  | i + 1 =>
    have hd := seq_dart hm h ha i (by omega)
    have := (hd.nx hm (ha i (by omega))).2.2.1
    have e : nxt A V na nb (seq A V na nb d i) = d := hb
    rw [e] at this
    exact this h0

/-- The dart of the first direction. -/
theorem dart_start (hm : Mesh A V used) {start ia : Nat} (hs : used start) (hia : ia < 6) :
    Dart V used (ends (V start) ia).1 (ends (V start) ia).2 (start, (ifar ia).1) ∧
    rev V (ends (V start) ia).1 (ends (V start) ia).2 (start, (ifar ia).1) = (start, (ifar ia).2) ∧
    pivot V (ends (V start) ia).1 (ends (V start) ia).2 (start, (ifar ia).1) =
      (V start).getD (ifar ia).2 0 ∧
    pivot V (ends (V start) ia).1 (ends (V start) ia).2 (start, (ifar ia).2) =
      (V start).getD (ifar ia).1 0 ∧
    edgeOf V (ends (V start) ia).1 (ends (V start) ia).2 start = ia := by
  obtain ⟨hh, hf⟩ := start_edge (hm.len _ hs) (hm.nd _ hs) hia
  obtain ⟨i, hi, _, _, t1, t2, o1, o2, _⟩ := findEdge_spec hh
  have e : i = ia := by rw [hf] at hi; exact (Option.some.inj hi).symm
  subst e
  refine ⟨⟨hs, hh, t1⟩, ?_, ?_, ?_, ?_⟩
  · simp only [rev, o1]
  · simp only [pivot, o1]
  · simp only [pivot, o2]
  · simp [edgeOf, hf]

/-- What `MMG5_coquil` gives. -/
inductive CoqOK (m : M) (used : Nat → Prop) (na nb lmax start : Nat) (d : Nat × Nat) : Res → Prop
  | required (n : Nat) (c : Nat × Nat) (hc : Dart m.V used na nb c) (ha : Alive m.A m.V na nb c n)
      (hd : ∃ i ≤ n, (seq m.A m.V na nb c i).1 = start)
      (hr : ∃ j ≤ n, m.req (seq m.A m.V na nb c j).1 = true) : CoqOK m used na nb lmax start d .required
  | failed (n : Nat) (c : Nat × Nat) (hc : Dart m.V used na nb c) (ha : Alive m.A m.V na nb c n)
      (hd : c.1 = start ∨ Relation.ReflTransGen (Nbr m.A m.V na nb) start c.1)
      (hinj : ∀ i j, i ≤ n → j ≤ n →
        (seq m.A m.V na nb c i).1 = (seq m.A m.V na nb c j).1 → i = j)
      (hn : lmax - 3 < n + 1) : CoqOK m used na nb lmax start d .failed
  | closed (n : Nat) (hc : Chain m.A m.V used na nb d n true) (isb : Bool) (hn : n + 1 ≤ lmax - 3)
      (hr : ∀ i, 1 ≤ i → i ≤ n → m.req (seq m.A m.V na nb d i).1 = false)
      (hb : isb = true ↔ ∃ j ≤ n,
        m.bdy (seq m.A m.V na nb d j).1 (seq m.A m.V na nb d j).2 = true) :
      CoqOK m used na nb lmax start d (.shell (accOf m na nb d n).reverse true isb)
  | opened (n : Nat) (c : Nat × Nat) (hc : Chain m.A m.V used na nb c n false)
      (hs : ∃ i ≤ n, (seq m.A m.V na nb c i).1 = start) (hn : n + 1 ≤ lmax - 2)
      (hr : ∀ i ≤ n, (seq m.A m.V na nb c i).1 ≠ start →
        m.req (seq m.A m.V na nb c i).1 = false) :
      CoqOK m used na nb lmax start d (.shell (accOf m na nb c n).reverse false true)

theorem coquil_ok {m : M} (hm : Mesh m.A m.V used) {lmax start ia : Nat} (hl : 4 ≤ lmax)
    (hs : used start) (hia : ia < 6) :
    CoqOK m used (ends (m.V start) ia).1 (ends (m.V start) ia).2 lmax start (start, (ifar ia).1)
      (coquil m lmax start ia) := by
  obtain ⟨hd, hrev, hpiv, _, hed⟩ := dart_start hm hs hia
  generalize hna : (ends (m.V start) ia).1 = na at *
  generalize hnb : (ends (m.V start) ia).2 = nb at *
  have key := sweep1_spec (m := m) hm hd (lmax - 3 - 1) (lmax - 3 - 1) 0
    (m.bdy start (ifar ia).1) (by omega) (by intro i hi; omega) (by intro i h1 h2; omega)
    (by intro i h1 h2; omega) (by
      constructor
      · intro h; exact ⟨0, le_rfl, h⟩
      · rintro ⟨j, hj, h⟩
        have : j = 0 := by omega
        subst this; exact h)
  have e0 : seq m.A m.V na nb (start, (ifar ia).1) 0 = (start, (ifar ia).1) := rfl
  have e1 : accOf m na nb (start, (ifar ia).1) 0 = [6 * start + ia] := by
    simp [accOf, entry, e0, hed]
  rw [e0, hpiv, e1] at key
  unfold coquil
  simp only [hna, hnb]
  revert key
  generalize sweep1 m start na nb (lmax - 3 - 1) (link m.A start (ifar ia).1 / 4)
      ((m.V start).getD (ifar ia).2 0) (m.bdy start (ifar ia).1) [6 * start + ia] = R
  intro key
  match R, key with
  | .stop .required, ⟨j, hj, ha, hr⟩ =>
    exact .required j _ hd ha ⟨0, by omega, rfl⟩ ⟨j, le_rfl, hr⟩
  | .stop .failed, ⟨ha, hne⟩ =>
    exact .failed _ _ hd ha (.inl rfl) (seq_inj hm hd ha hne) (by omega)
  | .closed acc isb, ⟨n, hn, ha, hne, hback, hr, hacc, hb⟩ =>
    subst hacc
    exact .closed n (chain_one hm hd ha hne hback) isb (by omega) hr hb
  | .opened acc piv, ⟨n, hn, ha, hz, hne, hr, hacc, hp⟩ =>
    subst hacc hp
    have hdn := seq_dart hm hd ha n le_rfl
    obtain ⟨hdr, hrr, _⟩ := hdn.rv
    obtain ⟨i, hi, h6, _, _, _, o1, o2, hall, _, hdif⟩ := findEdge_spec hdn.has
    obtain ⟨_, _, hq, hrem⟩ := hdn.edge
    have hedn : edgeOf m.V na nb (seq m.A m.V na nb (start, (ifar ia).1) n).1 = i := by
      simp [edgeOf, hi]
    rw [hedn] at hrem
    have hhead : (accOf m na nb (start, (ifar ia).1) n).headD 0 =
        entry m.V na nb (seq m.A m.V na nb (start, (ifar ia).1) n) := by
      cases n with
      | zero => simp [accOf]
      | succ n => rw [accOf_succ]; rfl
    simp only [hhead, hq, hrem, if_neg (show ¬ lmax - 3 < 1 by omega)]
    have key2 := sweep2_spec (m := m) hm hdr (lmax - 2 - 1) (lmax - 2 - 1) 0 (by omega)
      (by intro i hi; omega) (by intro i h1 h2; omega)
    have f0 : seq m.A m.V na nb (rev m.V na nb (seq m.A m.V na nb (start, (ifar ia).1) n)) 0 =
      rev m.V na nb (seq m.A m.V na nb (start, (ifar ia).1) n) := rfl
    have f1 : accOf m na nb (rev m.V na nb (seq m.A m.V na nb (start, (ifar ia).1) n)) 0 =
        [entry m.V na nb (seq m.A m.V na nb (start, (ifar ia).1) n)] := by
      rfl
    rw [f0, f1] at key2
    have hif : (if (m.V (seq m.A m.V na nb (start, (ifar ia).1) n).1).getD (ifar i).1 0 =
          pivot m.V na nb (seq m.A m.V na nb (start, (ifar ia).1) n) then
        sweep2 m na nb (lmax - 2 - 1)
          (link m.A (seq m.A m.V na nb (start, (ifar ia).1) n).1 (ifar i).1)
          ((m.V (seq m.A m.V na nb (start, (ifar ia).1) n).1).getD (ifar i).2 0)
          [entry m.V na nb (seq m.A m.V na nb (start, (ifar ia).1) n)]
        else
        sweep2 m na nb (lmax - 2 - 1)
          (link m.A (seq m.A m.V na nb (start, (ifar ia).1) n).1 (ifar i).2)
          ((m.V (seq m.A m.V na nb (start, (ifar ia).1) n).1).getD (ifar i).1 0)
          [entry m.V na nb (seq m.A m.V na nb (start, (ifar ia).1) n)]) =
        sweep2 m na nb (lmax - 2 - 1)
          (link m.A (rev m.V na nb (seq m.A m.V na nb (start, (ifar ia).1) n)).1
            (rev m.V na nb (seq m.A m.V na nb (start, (ifar ia).1) n)).2)
          (pivot m.V na nb (rev m.V na nb (seq m.A m.V na nb (start, (ifar ia).1) n)))
          [entry m.V na nb (seq m.A m.V na nb (start, (ifar ia).1) n)] := by
      rcases hall _ hdn.thru with e | e
      · simp only [pivot, rev, e, o1, o2]
        rw [if_neg hdif]
      · simp only [pivot, rev, e, o1, o2]
        rw [if_pos trivial]
    rw [hif]
    revert key2
    generalize sweep2 m na nb (lmax - 2 - 1)
          (link m.A (rev m.V na nb (seq m.A m.V na nb (start, (ifar ia).1) n)).1
            (rev m.V na nb (seq m.A m.V na nb (start, (ifar ia).1) n)).2)
          (pivot m.V na nb (rev m.V na nb (seq m.A m.V na nb (start, (ifar ia).1) n)))
          [entry m.V na nb (seq m.A m.V na nb (start, (ifar ia).1) n)] = R2
    intro key2
    have hpath := (seq_path hm hd ha 0 n (by omega)).1
    rw [Nat.zero_add] at hpath
    have hsr := seq_rev hm hd ha
    match R2, key2 with
    | .required, ⟨j, hj, ha2, hr2⟩ =>
      by_cases hjn : n ≤ j
      · refine .required j _ hdr ha2 ⟨n, hjn, ?_⟩ ⟨j, le_rfl, hr2⟩
        rw [(hsr n le_rfl).1, Nat.sub_self]; rfl
      · have e := (hsr j (by omega)).1
        rw [e] at hr2
        refine .required n _ hd ha ⟨0, by omega, rfl⟩ ⟨n - j, by omega, hr2⟩
    | .failed, ha2 =>
      refine .failed _ _ hdr ha2 (.inr hpath) (seq_inj_open hm hdr ha2 ?_) (by omega)
      rw [hrr]; exact hz
    | .shell l cl isb, ⟨p, hp, ha2, hz2, hr2, hl2, hcl, hisb⟩ =>
      subst hl2 hcl hisb
      have hpn : n ≤ p := by
        by_contra hlt
        have := (hsr p (by omega)).2 (by omega)
        rw [← (hsr p (by omega)).1] at this
        exact this hz2
      refine .opened p _ ⟨hdr, ha2, by simp, fun _ => ⟨hz2, by rw [hrr]; exact hz⟩⟩
        ⟨n, hpn, ?_⟩ (by omega) ?_
      · rw [(hsr n le_rfl).1, Nat.sub_self]; rfl
      · intro i hi hne'
        match i with
        | 0 =>
          have hn0 : n ≠ 0 := by
            rintro rfl
            exact hne' rfl
          exact hr n (by omega) le_rfl
        | i + 1 => exact hr2 (i + 1) (by omega) hi

end

/-! ## C59: the shell of an edge -/

section
variable {m : M} {used : Nat → Prop}

theorem mem_acc {na nb n : Nat} {c : Nat × Nat} (x : Nat) :
    x ∈ (accOf m na nb c n).reverse ↔ ∃ j ≤ n, entry m.V na nb (seq m.A m.V na nb c j) = x := by
  simp only [accOf, List.reverse_reverse, List.mem_map, List.mem_range]
  constructor
  · rintro ⟨j, hj, h⟩; exact ⟨j, by omega, h⟩
  · rintro ⟨j, hj, h⟩; exact ⟨j, by omega, h⟩

/-- The list of a chain. -/
theorem chain_list (hm : Mesh m.A m.V used) {na nb n : Nat} {c : Nat × Nat} {cl : Bool}
    (hc : Chain m.A m.V used na nb c n cl) {i : Nat} (hi : i ≤ n) :
    ((accOf m na nb c n).reverse.map (· / 6)).Nodup ∧
    (∀ k, k ∈ (accOf m na nb c n).reverse.map (· / 6) ↔
      Relation.ReflTransGen (Nbr m.A m.V na nb) (seq m.A m.V na nb c i).1 k) ∧
    (∀ x ∈ (accOf m na nb c n).reverse, used (x / 6) ∧ IsEdge (m.V (x / 6)) na nb (x % 6)) ∧
    ((accOf m na nb c n).reverse.map (· / 6)).IsChain (Nbr m.A m.V na nb) := by
  have hq : ∀ j ≤ n, entry m.V na nb (seq m.A m.V na nb c j) / 6 = (seq m.A m.V na nb c j).1 :=
    fun j hj => (seq_dart hm hc.dart hc.alive j hj).edge.2.2.1
  have hmap : (accOf m na nb c n).reverse.map (· / 6) =
      (List.range (n + 1)).map fun j => (seq m.A m.V na nb c j).1 := by
    simp only [accOf, List.reverse_reverse, List.map_map]
    apply List.map_congr_left
    intro j hj
    rw [List.mem_range] at hj
    exact hq j (by omega)
  refine ⟨?_, ?_, ?_, ?_⟩
  · rw [hmap]
    apply List.Nodup.map_on _ List.nodup_range
    intro a ha b hb hab
    rw [List.mem_range] at ha hb
    exact hc.inj hm a b (by omega) (by omega) hab
  · intro k
    rw [hc.reach hm hi k, hmap]
    simp only [List.mem_map, List.mem_range]
    constructor
    · rintro ⟨j, hj, h⟩; exact ⟨j, by omega, h⟩
    · rintro ⟨j, hj, h⟩; exact ⟨j, by omega, h⟩
  · intro x hx
    obtain ⟨j, hj, rfl⟩ := (mem_acc x).1 hx
    have hd := seq_dart hm hc.dart hc.alive j hj
    obtain ⟨h6, he, h1, h2⟩ := hd.edge
    rw [h1, h2]
    exact ⟨hd.used, h6, he⟩
  · rw [hmap, List.isChain_iff_getElem]
    intro j hj
    simp only [List.length_map, List.length_range] at hj
    simp only [List.getElem_map, List.getElem_range]
    have hd := seq_dart hm hc.dart hc.alive j (by omega)
    exact ⟨_, hd.thru, hc.alive j (by omega), rfl⟩

/-- **C59.** When `MMG5_coquil` gives a shell, the list has exactly the tetrahedra around the edge
(those reached from the first one through faces that contain the edge), each one once, with the
number of the edge in it, and two consecutive ones share a face through the edge; the shell is said
to be closed exactly when no face around the edge is on the boundary of the mesh, and then the list
starts with the given tetrahedron and its last one is a neighbour of the first; the edge is said to
be a boundary edge exactly when one face around it has no neighbour or is a boundary face; no
tetrahedron but possibly the given one is required; the list fits. -/
theorem C59_shell (hm : Mesh m.A m.V used) (hb : TwoSided m used) {lmax start ia : Nat}
    (hl : 4 ≤ lmax) (hs : used start) (hia : ia < 6) {l : List Nat} {cl isb : Bool}
    (h : coquil m lmax start ia = .shell l cl isb) :
    (l.map (· / 6)).Nodup ∧
    (∀ k, k ∈ l.map (· / 6) ↔ InShell m.A m.V start ia k) ∧
    (∀ x ∈ l, used (x / 6) ∧
      IsEdge (m.V (x / 6)) (ends (m.V start) ia).1 (ends (m.V start) ia).2 (x % 6)) ∧
    (l.map (· / 6)).IsChain (Nbr m.A m.V (ends (m.V start) ia).1 (ends (m.V start) ia).2) ∧
    (cl = true ↔ ∀ k, InShell m.A m.V start ia k →
      ∀ f, Thru (m.V k) (ends (m.V start) ia).1 (ends (m.V start) ia).2 f → link m.A k f ≠ 0) ∧
    (cl = true → l.head? = some (6 * start + ia) ∧ ∃ x, l.getLast? = some x ∧
      Nbr m.A m.V (ends (m.V start) ia).1 (ends (m.V start) ia).2 (x / 6) start) ∧
    (isb = true ↔ ∃ k f, InShell m.A m.V start ia k ∧
      Thru (m.V k) (ends (m.V start) ia).1 (ends (m.V start) ia).2 f ∧
      (link m.A k f = 0 ∨ m.bdy k f = true)) ∧
    (∀ k, InShell m.A m.V start ia k → k ≠ start → m.req k = false) ∧
    l.length ≤ lmax - 2 := by
  have hok := coquil_ok (m := m) hm hl hs hia
  obtain ⟨_, _, _, _, hed⟩ := dart_start hm hs hia
  rw [h] at hok
  unfold InShell
  generalize (ends (m.V start) ia).1 = na at *
  generalize (ends (m.V start) ia).2 = nb at *
  cases hok with
  | closed n hc _ hn hr hbd =>
    obtain ⟨l1, l2, l3, l4⟩ := chain_list hm hc (i := 0) (by omega)
    have e0 : seq m.A m.V na nb (start, (ifar ia).1) 0 = (start, (ifar ia).1) := rfl
    have hreach := fun k => hc.reach hm (i := 0) (by omega) k
    rw [e0] at l2
    simp only [e0] at hreach
    refine ⟨l1, l2, l3, l4, ?_, fun _ => ⟨?_, ?_⟩, ?_, ?_, ?_⟩
    · simp only [true_iff]
      intro k hk f hf hz
      obtain ⟨j, hj, rfl⟩ := (hreach k).1 hk
      rcases hc.face hm hj hf with rfl | ⟨hh, _⟩ | ⟨i, hi, _, h2⟩
      · by_cases hjn : j < n
        · exact hc.alive j hjn hz
        · have : j = n := by omega
          subst this
          exact (hc.closed rfl).1 hz
      · cases hh
      · have hp := hm.adj.pos _ (seq_dart hm hc.dart hc.alive i hi).used
        omega
    · simp [accOf, List.range_succ_eq_map, entry, e0, hed]
    · refine ⟨entry m.V na nb (seq m.A m.V na nb (start, (ifar ia).1) n), ?_, ?_⟩
      · simp [accOf, List.range_succ]
      · have hd := seq_dart hm hc.dart hc.alive n le_rfl
        rw [hd.edge.2.2.1]
        refine ⟨_, hd.thru, (hc.closed rfl).1, ?_⟩
        have := congrArg Prod.fst (hc.closed rfl).2.1
        exact this.symm
    · rw [hbd]
      constructor
      · rintro ⟨j, hj, hjb⟩
        exact ⟨_, _, (hreach _).2 ⟨j, hj, rfl⟩, (seq_dart hm hc.dart hc.alive j hj).thru, .inr hjb⟩
      · rintro ⟨k, f, hk, hf, hz⟩
        obtain ⟨j, hj, rfl⟩ := (hreach k).1 hk
        have hdj := seq_dart hm hc.dart hc.alive j hj
        rcases hc.face hm hj hf with rfl | ⟨hh, _⟩ | ⟨i, hi, h1, h2⟩
        · rcases hz with hz | hz
          · exfalso
            by_cases hjn : j < n
            · exact hc.alive j hjn hz
            · have : j = n := by omega
              subst this
              exact (hc.closed rfl).1 hz
          · exact ⟨j, hj, hz⟩
        · cases hh
        · have hdi := seq_dart hm hc.dart hc.alive i hi
          have hp := hm.adj.pos _ hdi.used
          rcases hz with hz | hz
          · omega
          · refine ⟨i, hi, ?_⟩
            have := hb _ hdj.used f hf.1 (by omega)
            rw [h2, hz] at this
            have t4 := hdi.thru.1
            rwa [show (4 * (seq m.A m.V na nb (start, (ifar ia).1) i).1 +
                (seq m.A m.V na nb (start, (ifar ia).1) i).2) / 4 =
                (seq m.A m.V na nb (start, (ifar ia).1) i).1 by omega,
              show (4 * (seq m.A m.V na nb (start, (ifar ia).1) i).1 +
                (seq m.A m.V na nb (start, (ifar ia).1) i).2) % 4 =
                (seq m.A m.V na nb (start, (ifar ia).1) i).2 by omega] at this
    · intro k hk hne
      obtain ⟨j, hj, rfl⟩ := (hreach k).1 hk
      match j with
      | 0 => exact absurd rfl hne
      | j + 1 => exact hr (j + 1) (by omega) hj
    · simp only [accOf, List.length_reverse, List.length_map, List.length_range]
      omega
  | opened n c hc hs' hn hr =>
    obtain ⟨i0, hi0, hst⟩ := hs'
    obtain ⟨l1, l2, l3, l4⟩ := chain_list hm hc hi0
    have hreach := fun k => hc.reach hm hi0 k
    rw [hst] at l2
    simp only [hst] at hreach
    have hz := (hc.opened rfl).1
    have hin := (hreach _).2 ⟨n, le_rfl, rfl⟩
    have hth := (seq_dart hm hc.dart hc.alive n le_rfl).thru
    refine ⟨l1, l2, l3, l4, ?_, by simp, ?_, ?_, ?_⟩
    · simp only [Bool.false_eq_true, false_iff]
      intro hall
      exact hall _ hin _ hth hz
    · simp only [true_iff]
      exact ⟨_, _, hin, hth, .inl hz⟩
    · intro k hk hne
      obtain ⟨j, hj, rfl⟩ := (hreach k).1 hk
      exact hr j hj hne
    · simp only [accOf, List.length_reverse, List.length_map, List.length_range]
      omega

/-- **C59.** When `MMG5_coquil` gives no shell, then one tetrahedron around the edge is required
(return value 0), or there are more tetrahedra around it than fit in the list (return value -1);
no assertion fails. -/
theorem C59_no_shell (hm : Mesh m.A m.V used) {lmax start ia : Nat}
    (hl : 4 ≤ lmax) (hs : used start) (hia : ia < 6) :
    coquil m lmax start ia ≠ .asrt ∧
    (coquil m lmax start ia = .required →
      ∃ k, InShell m.A m.V start ia k ∧ m.req k = true) ∧
    (coquil m lmax start ia = .failed →
      ∃ L : List Nat, L.Nodup ∧ lmax - 3 < L.length ∧ ∀ k ∈ L, InShell m.A m.V start ia k) := by
  have hok := coquil_ok (m := m) hm hl hs hia
  unfold InShell
  generalize (ends (m.V start) ia).1 = na at *
  generalize (ends (m.V start) ia).2 = nb at *
  refine ⟨?_, ?_, ?_⟩
  · intro h
    rw [h] at hok
    cases hok
  · intro h
    rw [h] at hok
    cases hok with
    | required n c hc ha hd hr =>
      obtain ⟨i, hi, rfl⟩ := hd
      obtain ⟨j, hj, hr⟩ := hr
      refine ⟨_, ?_, hr⟩
      rcases Nat.le_total i j with hij | hij
      · have := (seq_path hm hc ha i (j - i) (by omega)).1
        rwa [show i + (j - i) = j by omega] at this
      · have := (seq_path hm hc ha j (i - j) (by omega)).2
        rwa [show j + (i - j) = i by omega] at this
  · intro h
    rw [h] at hok
    cases hok with
    | failed n c hc ha hd hinj hn =>
      refine ⟨(List.range (n + 1)).map fun j => (seq m.A m.V na nb c j).1, ?_, ?_, ?_⟩
      · apply List.Nodup.map_on _ List.nodup_range
        intro a ha b hb hab
        rw [List.mem_range] at ha hb
        exact hinj a b (by omega) (by omega) hab
      · simpa using hn
      · intro k hk
        simp only [List.mem_map, List.mem_range] at hk
        obtain ⟨j, hj, rfl⟩ := hk
        have := (seq_path hm hc ha 0 j (by omega)).1
        rw [Nat.zero_add] at this
        rcases hd with rfl | hd
        · exact this
        · exact hd.trans this

end

end Mmg.Shell
