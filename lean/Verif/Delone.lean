/-
  C64. Properties of the insertion of a vertex in a cavity (`MMG5_delone`, mmg3d/delaunay_3d.c).
-/
import Verif.DeloneGeo
import Verif.DeloneRec
import Mathlib.Data.Set.Card

namespace Mmg.Delone

open Mmg.Split3 Mmg.Swap23 Mmg.Shell Mmg.Hash

/-- The faces of the surface of the cavity. -/
def surface (A : Nat → Nat) (l : List Nat) : Set (Nat × Nat) := {d | Outer A l d.1 d.2}

/-- `face` numbers the faces of the surface from 0 to `n - 1`. -/
structure Numbers (A : Nat → Nat) (l : List Nat) (n : Nat) (face : Nat → Nat × Nat) : Prop where
  mem : ∀ j < n, face j ∈ surface A l
  inj : ∀ i < n, ∀ j < n, face i = face j → i = j
  surj : ∀ d ∈ surface A l, ∃ j < n, face j = d

section
variable {s : St} {used : Nat → Prop} {base ip : Nat} {l : List Nat} {new : Nat → Nat}
  {lonmax : Nat} {g : Option Nat} {room : Nat → Bool}

/-! ### Lemmas -/

theorem Sit.card (H : Sit s used base ip l new) :
    (surface s.A l).ncard = (extFaces s base l).length := by
  have : surface s.A l = ((extFaces s base l).toFinset : Set (Nat × Nat)) := by
    ext d
    simp only [surface, Set.mem_setOf_eq, Finset.mem_coe, List.mem_toFinset]
    exact H.mem_ext.symm
  rw [this, Set.ncard_coe_finset, List.toFinset_card_of_nodup H.nodup]

theorem Sit.numbers (H : Sit s used base ip l new) :
    ∃ face, Numbers s.A l (extFaces s base l).length face ∧
      ∀ j < (extFaces s base l).length, (extFaces s base l)[j]? = some (face j) := by
  have get : ∀ j < (extFaces s base l).length,
      (extFaces s base l)[j]? = some ((extFaces s base l)[j]!) := fun n hn => by
    rw [List.getElem?_eq_getElem hn, getElem!_pos _ n hn]
  refine ⟨fun j => (extFaces s base l)[j]!, ⟨?_, ?_, ?_⟩, get⟩
  · intro j hj
    exact H.mem_ext.1 (List.mem_of_getElem? (get j hj))
  · intro i hi j hj h
    rw [getElem!_pos (extFaces s base l) i hi, getElem!_pos (extFaces s base l) j hj] at h
    exact (List.Nodup.getElem_inj_iff H.nodup).1 h
  · intro d hd
    obtain ⟨j, hj⟩ := List.mem_iff_getElem?.1 (H.mem_ext.2 hd)
    obtain ⟨hl, he⟩ := List.getElem?_eq_some_iff.1 hj
    exact ⟨j, hl, by rw [getElem!_pos (extFaces s base l) j hl, he]⟩

theorem minv0 (s : St) (ip : Nat) (new : Nat → Nat) (n : Nat) (b : Bool) :
    MInv s ip new n [] ⟨s, 0, hashNew n (3 * n), b⟩ := by
  refine ⟨rfl, fun _ _ => rfl, by simp, fun _ _ => rfl, fun _ _ => rfl, by simp, ?_⟩
  have e : evs s ip new [] = [] := rfl
  rw [e]
  exact ⟨inv_hashNew false n (3 * n) (by omega), rfl, rfl, by simp [hashNew], fun _ _ => rfl,
    fun _ => by simp [run, keys]⟩

theorem Sit.run (H : Sit s used base ip l new) (g : Option Nat) (room : Nat → Bool) :
    tets g room new base ip l
        ⟨s, 0, hashNew (extFaces s base l).length (3 * (extFaces s base l).length), false⟩ = .nomem ∨
    ∃ a, tets g room new base ip l
        ⟨s, 0, hashNew (extFaces s base l).length (3 * (extFaces s base l).length), false⟩ = .ok a ∧
      MInv s ip new (extFaces s base l).length (extFaces s base l) a := by
  have := tets_spec H g room H.room l (fun _ h => h) [] [] _ (by simp) (minv0 s ip new _ false)
  simpa using this

theorem Sit.done (H : Sit s used base ip l new) {s' : St} {n : Nat}
    (h : delone lonmax g room new base ip l s = .done s' n) :
    n = (extFaces s base l).length ∧ isolated s base l = false ∧
    ∃ a, tets g room new base ip l
        ⟨s, 0, hashNew (extFaces s base l).length (3 * (extFaces s base l).length), false⟩ = .ok a ∧
      MInv s ip new (extFaces s base l).length (extFaces s base l) a ∧ s' = l.foldl delElt a.s := by
  unfold delone at h
  simp only at h
  split_ifs at h with h1 h2
  rcases H.run g room with hr | ⟨a, hr, I⟩
  · rw [hr] at h; cases h
  · rw [hr] at h
    simp only [Out.done.injEq] at h
    exact ⟨by rw [← h.2, I.n], by simpa using h1, a, hr, I, h.1.symm⟩

theorem Sit.isolated_iff (H : Sit s used base ip l new) :
    isolated s base l = true ↔
      ∃ k ∈ l, ∃ x ∈ s.V k, ∀ d ∈ surface s.A l, x ∉ faceTri 0 (s.V d.1) d.2 := by
  unfold isolated
  simp only [List.any_eq_true, Bool.not_eq_true', List.any_eq_false, decide_eq_true_eq,
    List.mem_range]
  have tri : ∀ d ∈ surface s.A l, ∀ x, x ∈ faceTri 0 (s.V d.1) d.2 ↔
      ∃ j < 3, (s.V d.1).getD (idirf d.2 j) 0 = x := by
    intro d hd x
    rw [face_getD (H.mesh.len _ (H.cav.sub _ hd.1)) hd.2.1]
    simp only [Multiset.insert_eq_cons, Multiset.mem_cons, Multiset.mem_singleton]
    constructor
    · rintro (h | h | h)
      · exact ⟨0, by decide, h.symm⟩
      · exact ⟨1, by decide, h.symm⟩
      · exact ⟨2, by decide, h.symm⟩
    · rintro ⟨j, hj, h⟩
      interval_cases j
      · exact .inl h.symm
      · exact .inr (.inl h.symm)
      · exact .inr (.inr h.symm)
  constructor
  · rintro ⟨k, hk, i, hi, h⟩
    refine ⟨k, hk, (s.V k).getD i 0, ?_, fun d hd hx => ?_⟩
    · rw [List.getD_eq_getElem?_getD, List.getElem?_eq_getElem (by
        rw [H.mesh.len _ (H.cav.sub _ hk)]; exact hi)]
      exact List.getElem_mem _
    · obtain ⟨j, hj, e⟩ := (tri d hd _).1 hx
      exact h d (H.mem_ext.2 hd) ⟨j, hj, e⟩
  · rintro ⟨k, hk, x, hx, h⟩
    obtain ⟨i, hi, rfl⟩ := List.getElem_of_mem hx
    refine ⟨k, hk, i, by rw [← H.mesh.len _ (H.cav.sub _ hk)]; exact hi, ?_⟩
    rintro d hd ⟨j, hj, e⟩
    refine h d (H.mem_ext.1 hd) ((tri d (H.mem_ext.1 hd) _).2 ⟨j, hj, ?_⟩)
    rw [e, List.getD_eq_getElem?_getD, List.getElem?_eq_getElem hi]
    rfl

/-! ### Properties -/

/-- **C64.** The function returns: it refuses, it finds no memory for a boundary record, or it
succeeds.  The table of the edges is never read outside of its bounds and never has to grow. -/
theorem C64_total (H : Sit s used base ip l new) :
    delone lonmax g room new base ip l s = .refused ∨
    (delone lonmax g room new base ip l s = .nomem ∧ ∃ n, room n = false) ∨
    ∃ s' n, delone lonmax g room new base ip l s = .done s' n := by
  unfold delone
  simp only
  split_ifs
  · exact .inl rfl
  · exact .inl rfl
  · rcases H.run g room with hr | ⟨a, hr, I⟩
    · rw [hr]; exact .inr (.inl ⟨rfl, tets_nomem hr⟩)
    · rw [hr]; exact .inr (.inr ⟨_, _, rfl⟩)

/-- **C64.** The insertion is refused exactly if a vertex of the cavity is on no face of its surface
(it would be lost), or if there are too many faces. -/
theorem C64_refused (H : Sit s used base ip l new) :
    delone lonmax g room new base ip l s = .refused ↔
      (∃ k ∈ l, ∃ x ∈ s.V k, ∀ d ∈ surface s.A l, x ∉ faceTri 0 (s.V d.1) d.2) ∨
      3 * lonmax < (surface s.A l).ncard := by
  rw [← H.isolated_iff, H.card]
  unfold delone
  simp only
  split_ifs with h1 h2
  · simp [h1]
  · simp [h2]
  · simp only [h1, h2, or_self, iff_false, Bool.false_eq_true]
    rcases H.run g room with hr | ⟨a, hr, I⟩
    · rw [hr]; intro h; cases h
    · rw [hr]; intro h; cases h

/-- **C64.** The new tetrahedra: one over each face of the surface, from the face to the new vertex,
with the reference of the tetrahedron that it replaces; the other tetrahedra are not changed; no
vertex is lost. -/
theorem C64_tets (H : Sit s used base ip l new) {s' : St} {n : Nat}
    (h : delone lonmax g room new base ip l s = .done s' n) :
    n = (surface s.A l).ncard ∧
    (∃ face, Numbers s.A l n face ∧ ∀ j < n,
      s'.V (new j) = (s.V (face j).1).set (face j).2 ip ∧ s'.tref (new j) = s.tref (face j).1) ∧
    (∀ k, used k → k ∉ l → s'.V k = s.V k ∧ s'.tref k = s.tref k) ∧
    (∀ x k, used k → x ∈ s.V k → ∃ k', After used l new n k' ∧ x ∈ s'.V k') := by
  obtain ⟨hn, hiso, a, hr, I, rfl⟩ := H.done h
  have R := H.result I
  obtain ⟨face, hN, hf⟩ := H.numbers
  rw [← hn] at hN hf
  refine ⟨by rw [hn, H.card], ⟨face, hN, fun j hj => ⟨R.Vn j _ (hf j hj), R.Tn j _ (hf j hj)⟩⟩,
    fun k hk hkl => ⟨R.V k hk hkl, R.T k hk⟩, ?_⟩
  intro x k hk hx
  by_cases hkl : k ∈ l
  · have hni : ¬ ∃ k ∈ l, ∃ x ∈ s.V k, ∀ d ∈ surface s.A l, x ∉ faceTri 0 (s.V d.1) d.2 := by
      rw [← H.isolated_iff, hiso]; simp
    push Not at hni
    obtain ⟨d, hd, hxd⟩ := hni k hkl x hx
    obtain ⟨j, hj, rfl⟩ := hN.surj d hd
    refine ⟨new j, .inr ⟨j, hj, rfl⟩, ?_⟩
    rw [R.Vn j _ (hf j hj), newV]
    have hl4 := H.mesh.len _ (H.cav.sub _ hd.1)
    rw [← faceTri_set_self hl4 hd.2.1 ip] at hxd
    exact mem_of_face (by rw [List.length_set]; exact hl4) hd.2.1 hxd
  · exact ⟨k, .inl ⟨hk, hkl⟩, by rw [R.V k hk hkl]; exact hx⟩

/-- **C64.** If no edge of the surface of the cavity is on more than two of its faces, the result is
a valid mesh: links are symmetric and join tetrahedra with the same three vertices; the four vertices
of a tetrahedron are different. -/
theorem C64_mesh (H : Sit s used base ip l new) (hp : NoPinch s.A s.V l) {s' : St} {n : Nat}
    (h : delone lonmax g room new base ip l s = .done s' n) :
    Mesh s'.A s'.V (After used l new n) := by
  obtain ⟨hn, _, a, _, I, rfl⟩ := H.done h
  rw [hn]
  exact H.mesh' hp (H.result I)

/-- **C64.** The links of the surface: the tetrahedra outside of the cavity are linked with the new
tetrahedron over the same face, the links between two tetrahedra outside of the cavity are kept. -/
theorem C64_links (H : Sit s used base ip l new) {s' : St} {n : Nat}
    (h : delone lonmax g room new base ip l s = .done s' n) :
    ∀ k, used k → k ∉ l → ∀ f < 4,
      (link s.A k f = 0 ∨ link s.A k f / 4 ∉ l → link s'.A k f = link s.A k f) ∧
      (link s.A k f ≠ 0 → link s.A k f / 4 ∈ l → ∃ j < n, link s'.A k f / 4 = new j ∧
        faceTri 0 (s'.V (new j)) (link s'.A k f % 4) = faceTri 0 (s.V k) f ∧
        link s'.A (new j) (link s'.A k f % 4) = 4 * k + f) := by
  obtain ⟨hn, _, a, _, I, rfl⟩ := H.done h
  have R := H.result I
  intro k hk hkl f hf
  refine ⟨fun hc => R.rest k hk hkl f hf hc, fun hc0 hcl => ?_⟩
  obtain ⟨hu, _, hsym, hface⟩ := H.mesh.adj.ok k hk f hf hc0
  have hm4 : link s.A k f % 4 < 4 := Nat.mod_lt _ (by decide)
  have hk1 := H.mesh.adj.pos k hk
  have hdiv : (4 * k + f) / 4 = k := by omega
  have hmod : (4 * k + f) % 4 = f := by omega
  have ho : Outer s.A l (link s.A k f / 4) (link s.A k f % 4) := by
    refine ⟨hcl, hm4, .inr ?_⟩
    rw [hsym, hdiv]; exact hkl
  obtain ⟨j, hj⟩ := List.mem_iff_getElem?.1
    (H.mem_ext (d := (link s.A k f / 4, link s.A k f % 4)) |>.2 ho)
  have hb := R.back j _ hj (by simp only [hsym]; omega)
  have hw := R.own j _ hj
  simp only [hsym, hdiv, hmod] at hb hw
  have e1 : (4 * new j + link s.A k f % 4) / 4 = new j := by omega
  have e2 : (4 * new j + link s.A k f % 4) % 4 = link s.A k f % 4 := by omega
  refine ⟨j, by rw [hn]; exact (List.getElem?_eq_some_iff.1 hj).1, ?_, ?_, ?_⟩
  · rw [hb, e1]
  · rw [hb, e2, R.Vn j _ hj, newV, faceTri_set_self (H.mesh.len _ hu) hm4]
    exact hface
  · rw [hb, e2, hw]

/-- **C64.** If linked faces were seen with opposite orientations, it is still so. -/
theorem C64_oriented (H : Sit s used base ip l new) (hp : NoPinch s.A s.V l)
    (ho : Oriented s.A s.V used) {s' : St} {n : Nat}
    (h : delone lonmax g room new base ip l s = .done s' n) :
    Oriented s'.A s'.V (After used l new n) := by
  obtain ⟨hn, _, a, _, I, rfl⟩ := H.done h
  rw [hn]
  exact H.oriented hp ho (H.result I)

/-- **C64.** The oriented volume of the cavity is kept, wherever the new vertex is; thus the volume
of the domain is kept. -/
theorem C64_volume {K : Type} [Field K] (H : Sit s used base ip l new)
    (ho : Oriented s.A s.V used) (c : Nat → Pt K) {s' : St} {n : Nat}
    (h : delone lonmax g room new base ip l s = .done s' n) :
    ∑ j ∈ Finset.range n, volOf c (s'.V (new j)) = (l.map fun k => volOf c (s.V k)).sum := by
  obtain ⟨hn, _, a, _, I, rfl⟩ := H.done h
  rw [hn]
  exact H.volume ho (H.result I) c

/-- **C64.** Boundary data: each face of the surface keeps its reference, its tag and its orientation, and the edges
of a face with data keep theirs; the faces and the edges inside of the cavity have none; the data of
the other tetrahedra are not changed; no two tetrahedra share a record. -/
theorem C64_records (H : Sit s used base ip l new) (hS : Slots s used) {s' : St} {n : Nat}
    (h : delone lonmax g room new base ip l s = .done s' n) :
    Slots s' (After used l new n) ∧
    (∃ face, Numbers s.A l n face ∧ ∀ j < n,
      s'.V (new j) = (s.V (face j).1).set (face j).2 ip ∧
      (∀ f < 4, fd s' (new j) f = if f = (face j).2 then fd s (face j).1 f else (0, 0)) ∧
      (fd s (face j).1 (face j).2 ≠ (0, 0) → ∀ e < 6, ed s' (new j) e =
        if e ∈ iarf (face j).2 then ed s (face j).1 e else (0, 0)) ∧
      (fd s (face j).1 (face j).2 = (0, 0) → ∀ e < 6, ed s' (new j) e = (0, 0)) ∧
      (fd s (face j).1 (face j).2 ≠ (0, 0) →
        od s' (new j) (face j).2 = od s (face j).1 (face j).2)) ∧
    (∀ k, used k → k ∉ l → (∀ f < 4, fd s' k f = fd s k f ∧ od s' k f = od s k f) ∧
      ∀ e < 6, ed s' k e = ed s k e) := by
  obtain ⟨hn, _, a, hr, I, rfl⟩ := H.done h
  have R := H.result I
  obtain ⟨face, hN, hf⟩ := H.numbers
  rw [← hn] at hN hf
  have Q := tets_rec H hS g room l (fun _ h => h) H.cav.nd [] [] _ a (by simp)
    (minv0 s ip new _ false) (by simp) ⟨le_rfl, fun _ _ => rfl, fun _ _ _ => rfl, fun _ _ _ _ => rfl,
      by simp, by simp, by simp⟩ hr
  rw [List.nil_append] at Q
  obtain ⟨dV, dx, dA, dX, dt, dT, dF⟩ := del_spec l
    (fun k hk => H.mesh.adj.pos k (H.cav.sub k hk)) a.s
  have hnl : ∀ j < n, new j ∉ l := fun j hj hc => H.fresh.free j (by omega) (H.cav.sub _ hc)
  have xn : ∀ j < n, (l.foldl delElt a.s).xt (new j) = a.s.xt (new j) := fun j hj => by
    rw [dx, if_neg (hnl j hj)]
  have xk : ∀ k, used k → k ∉ l → (l.foldl delElt a.s).xt k = s.xt k := fun k hk hkl => by
    rw [dx, if_neg hkl]; exact Q.keep k hk hkl
  have hdat : ∀ j, HasData s (face j) ↔ fd s (face j).1 (face j).2 ≠ (0, 0) := by
    intro j
    unfold HasData fd
    by_cases h0 : s.xt (face j).1 = 0
    · simp [h0]
    · simp only [h0, if_false, ne_eq, not_false_eq_true, true_and, Prod.mk.injEq]
      rw [not_and_or]
  refine ⟨⟨?_, ?_, ?_⟩, ⟨face, hN, fun j hj => ⟨R.Vn j _ (hf j hj), ?_, ?_, ?_, ?_⟩⟩, ?_⟩
  · rintro k (⟨hk, hkl⟩ | ⟨j, hj, rfl⟩)
    · rw [xk k hk hkl, dt]; exact (hS.le k hk).trans Q.top
    · rw [xn j hj, dt]
      by_cases h0 : a.s.xt (new j) = 0
      · omega
      · exact (Q.loc j _ (hf j hj) h0).1
  · have mixed : ∀ k, used k → k ∉ l → ∀ j < n, s.xt k = a.s.xt (new j) → s.xt k ≠ 0 → False := by
      intro k hk hkl j hj he h0
      have h0' := h0
      rw [he] at h0'
      rcases (Q.loc j _ (hf j hj) h0').2 with h | h
      · have := hS.le k hk; omega
      · have hfl := (hN.mem j hj).1
        exact hkl (hS.inj k _ hk (H.cav.sub _ hfl) (he.trans h) h0 ▸ hfl)
    rintro k k' (⟨hk, hkl⟩ | ⟨j, hj, rfl⟩) (⟨hk', hkl'⟩ | ⟨j', hj', rfl⟩)
    · rw [xk k hk hkl, xk k' hk' hkl']; exact hS.inj k k' hk hk'
    · rw [xk k hk hkl, xn j' hj']; intro he h0; exact (mixed k hk hkl j' hj' he h0).elim
    · rw [xk k' hk' hkl', xn j hj]; intro he h0
      exact (mixed k' hk' hkl' j hj he.symm (by rw [← he]; exact h0)).elim
    · rw [xn j hj, xn j' hj']; intro he h0
      rw [Q.inj j (by omega) j' (by omega) he h0]
  · intro m hm
    rw [dt] at hm
    rw [dX, Q.blank m hm]
    exact hS.blank m (by have := Q.top; omega)
  · intro f hf4
    obtain ⟨r1, r2⟩ := Q.recs j _ (hf j hj)
    unfold fd
    rw [xn j hj, dX]
    by_cases hd : HasData s (face j)
    · obtain ⟨h1, h2, h3, h4, h5, h6⟩ := r2 hd
      rw [if_neg h1, h2, h3, if_neg hd.1]
      by_cases hff : f = (face j).2
      · subst hff; simp [Swap23.upd]
      · simp [Swap23.upd, hff]
    · rw [r1 hd, if_pos rfl]
      by_cases hff : f = (face j).2
      · subst hff
        rw [if_pos rfl]
        have := (not_congr (hdat j)).1 hd
        rw [not_not] at this
        exact this.symm
      · rw [if_neg hff]
  · intro hd e he
    have hd := (hdat j).2 hd
    obtain ⟨h1, h2, h3, h4, h5, h6⟩ := (Q.recs j _ (hf j hj)).some hd
    unfold ed
    rw [xn j hj, dX, if_neg h1, h4, h5, if_neg hd.1]
    by_cases h7 : e ∈ iarf (face j).2 <;> simp [h7]
  · intro hd e he
    have hd : ¬ HasData s (face j) := fun h => (hdat j).1 h hd
    unfold ed
    rw [xn j hj, (Q.recs j _ (hf j hj)).none hd, if_pos rfl]
  · intro hd
    have hd := (hdat j).2 hd
    obtain ⟨h1, h2, h3, h4, h5, h6⟩ := (Q.recs j _ (hf j hj)).some hd
    unfold od
    rw [xn j hj, dX, h6]
    simp [h1, hd.1]
  · intro k hk hkl
    have hX : s.xt k ≠ 0 → a.s.X (s.xt k) = s.X (s.xt k) := Q.keepX k hk hkl
    constructor
    · intro f hf4
      unfold fd od
      rw [xk k hk hkl, dX]
      by_cases h0 : s.xt k = 0
      · simp [h0]
      · rw [hX h0]; exact ⟨rfl, rfl⟩
    · intro e he
      unfold ed
      rw [xk k hk hkl, dX]
      by_cases h0 : s.xt k = 0
      · simp [h0]
      · rw [hX h0]

end

/-! ### Non-vacuity -/

namespace Ex

/-- Three tetrahedra; the first one has common faces with the two others.  The cavity is made of the
first two. -/
def V : Nat → List Nat
  | 1 => [1, 2, 3, 4]
  | 2 => [6, 2, 4, 3]
  | 3 => [7, 1, 3, 4]
  | _ => [0, 0, 0, 0]

def A : Nat → Nat
  | 1 => 8
  | 5 => 4
  | 2 => 12
  | 9 => 5
  | _ => 0

/-- Two faces of the first tetrahedron are on a boundary. -/
def x1 : XT where
  ref := fun i => if i = 2 then 10 else if i = 3 then 11 else 0
  ftag := fun i => if i = 2 ∨ i = 3 then 16 else 0
  ori := fun _ => false
  edg := fun e => if e = 0 then 7 else 0
  tag := fun e => if e = 0 then 18 else if e = 5 then 0 else 16

def s : St where
  A := A
  V := V
  flag := fun k => if k = 1 ∨ k = 2 then 9 else 0
  tref := fun k => k
  xt := fun k => if k = 1 then 1 else 0
  X := fun n => if n = 1 then x1 else XT.zero
  top := 1

def used (k : Nat) : Prop := k = 1 ∨ k = 2 ∨ k = 3

def new (j : Nat) : Nat := j + 4

theorem faces_eq : extFaces s 9 [1, 2] = [(1, 1), (1, 2), (1, 3), (2, 1), (2, 2), (2, 3)] := by
  decide +kernel

theorem sit : Sit s used 9 5 [1, 2] new := by
  refine ⟨⟨⟨?_, ?_⟩, ?_, ?_⟩, ⟨by decide, ?_, ?_⟩, ?_, ?_, ⟨?_, ?_, ?_⟩⟩
  · rintro k (rfl | rfl | rfl) <;> decide
  · rintro k (rfl | rfl | rfl) i hi h0 <;> interval_cases i <;>
      first
        | exact absurd rfl h0
        | exact ⟨by decide, by decide, by decide, by decide⟩
        | exact ⟨.inl rfl, by decide, by decide, by decide⟩
        | exact ⟨.inr (.inl rfl), by decide, by decide, by decide⟩
        | exact ⟨.inr (.inr rfl), by decide, by decide, by decide⟩
  · rintro k (rfl | rfl | rfl) <;> rfl
  · rintro k (rfl | rfl | rfl) <;> decide
  · intro k hk
    simp only [List.mem_cons, List.not_mem_nil, or_false] at hk
    rcases hk with rfl | rfl
    · exact .inl rfl
    · exact .inr (.inl rfl)
  · rintro k (rfl | rfl | rfl) <;> simp [s]
  · intro k hk
    simp only [List.mem_cons, List.not_mem_nil, or_false] at hk
    rcases hk with rfl | rfl <;> decide
  · intro k hk
    simp only [List.mem_cons, List.not_mem_nil, or_false] at hk
    rcases hk with rfl | rfl <;> decide
  · intro j _; simp [new]
  · intro j _; simp [new, used]
  · intro i _ j _ h; simpa [new] using h

theorem noPinch : NoPinch s.A s.V [1, 2] := by
  have key : ∀ x ∈ extFaces s 9 [1, 2], ∀ y ∈ extFaces s 9 [1, 2], ∀ z ∈ extFaces s 9 [1, 2],
      x = y ∨ y = z ∨ x = z ∨ ∀ a ∈ s.V x.1, ∀ b ∈ s.V x.1, a ≠ b →
        ¬ ((a ∈ faceTri 0 (s.V x.1) x.2 ∧ b ∈ faceTri 0 (s.V x.1) x.2) ∧
          (a ∈ faceTri 0 (s.V y.1) y.2 ∧ b ∈ faceTri 0 (s.V y.1) y.2) ∧
          (a ∈ faceTri 0 (s.V z.1) z.2 ∧ b ∈ faceTri 0 (s.V z.1) z.2)) := by
    decide +kernel
  intro a b hab x y z hx hy hz
  have hl := sit.mesh.len _ (sit.cav.sub _ hx.1.1)
  rcases key x (sit.mem_ext.2 hx.1) y (sit.mem_ext.2 hy.1) z (sit.mem_ext.2 hz.1) with h | h | h | h
  · exact .inl h
  · exact .inr (.inl h)
  · exact .inr (.inr h)
  · exact absurd ⟨hx.2, hy.2, hz.2⟩ (h a (mem_of_face hl hx.1.2.1 hx.2.1) b
      (mem_of_face hl hx.1.2.1 hx.2.2) hab)

theorem slots : Slots s used := by
  refine ⟨?_, ?_, ?_⟩
  · rintro k (rfl | rfl | rfl) <;> decide
  · rintro k k' (rfl | rfl | rfl) (rfl | rfl | rfl) <;> simp [s]
  · intro n hn
    have : n ≠ 1 := by
      rintro rfl
      exact absurd hn (by decide)
    simp [s, this, XT.zero]

theorem oriented : Oriented s.A s.V used := by
  rintro k (rfl | rfl | rfl) f hf h0 <;> interval_cases f <;>
    first
      | exact absurd rfl h0
      | exact ⟨0, by decide, by decide⟩
      | exact ⟨1, by decide, by decide⟩
      | exact ⟨2, by decide, by decide⟩

/-- The insertion of vertex 5 succeeds. -/
theorem done : ∃ s' n, delone 100 none (fun _ => true) new 9 5 [1, 2] s = .done s' n := by
  rcases C64_total (lonmax := 100) (g := none) (room := fun _ => true) sit with h | ⟨_, n, h⟩ | h
  · exfalso
    have : isolated s 9 [1, 2] = false := by decide +kernel
    have h2 : ¬ 3 * 100 < (extFaces s 9 [1, 2]).length := by rw [faces_eq]; decide
    unfold delone at h
    simp only [this] at h
    rw [if_neg (by simp), if_neg h2] at h
    rcases sit.run none (fun _ => true) with hr | ⟨a, hr, I⟩
    · rw [hr] at h; cases h
    · rw [hr] at h; cases h
  · cases h
  · exact h

/-- All the hypotheses of the theorems hold together. -/
example : ∃ s' n, delone 100 none (fun _ => true) new 9 5 [1, 2] s = .done s' n ∧
    Mesh s'.A s'.V (After used [1, 2] new n) ∧ Oriented s'.A s'.V (After used [1, 2] new n) ∧
    Slots s' (After used [1, 2] new n) := by
  obtain ⟨s', n, h⟩ := done
  exact ⟨s', n, h, C64_mesh sit noPinch h, C64_oriented sit noPinch oriented h,
    (C64_records sit slots h).1⟩

/-- Six new tetrahedra; faces and edges with data, and the neighbour. -/
example : (match delone 100 none (fun _ => true) new 9 5 [1, 2] s with
    | .done s' n => decide (n = 6) &&
        decide ((List.range n).map (fun j => s'.V (new j)) =
          [[1, 5, 3, 4], [1, 2, 5, 4], [1, 2, 3, 5], [6, 5, 4, 3], [6, 2, 5, 3], [6, 2, 4, 5]]) &&
        decide (link s'.A 3 0 = 17 ∧ fd s' 5 2 = (10, 16) ∧ fd s' 6 3 = (11, 16)) &&
        decide (ed s' 5 0 = (7, 18) ∧ ed s' 6 0 = (7, 18) ∧ s'.xt 5 = 1 ∧ s'.xt 6 = 2 ∧ s'.xt 4 = 0)
    | _ => false) = true := by
  decide +kernel

/-- Two tetrahedra with only an edge in common. -/
def Vp : Nat → List Nat
  | 1 => [1, 2, 3, 4]
  | 2 => [1, 2, 6, 7]
  | _ => [0, 0, 0, 0]

def sp : St := { s with V := Vp, A := fun _ => 0, xt := fun _ => 0 }

theorem sitP : Sit sp (fun k => k = 1 ∨ k = 2) 9 5 [1, 2] new := by
  refine ⟨⟨⟨?_, ?_⟩, ?_, ?_⟩, ⟨by decide, ?_, ?_⟩, ?_, ?_, ⟨?_, ?_, ?_⟩⟩
  · rintro k (rfl | rfl) <;> decide
  · rintro k (rfl | rfl) i hi h0 <;> exact absurd rfl h0
  · rintro k (rfl | rfl) <;> rfl
  · rintro k (rfl | rfl) <;> decide
  · intro k hk
    simpa using hk
  · rintro k (rfl | rfl) <;> simp [sp, s]
  · intro k hk
    simp only [List.mem_cons, List.not_mem_nil, or_false] at hk
    rcases hk with rfl | rfl <;> decide
  · intro k hk
    simp only [List.mem_cons, List.not_mem_nil, or_false] at hk
    rcases hk with rfl | rfl <;> decide
  · intro j _; simp [new]
  · intro j _; simp [new]
  · intro i _ j _ h; simpa [new] using h

end Ex

/-- **C64.** Without the hypothesis on the edges of the surface the links of the result may be wrong:
after an insertion in a cavity of two tetrahedra that share an edge only, a link is not symmetric. -/
theorem C64_pinched : ∃ s' n, delone 100 none (fun _ => true) Ex.new 9 5 [1, 2] Ex.sp = .done s' n ∧
    Sit Ex.sp (fun k => k = 1 ∨ k = 2) 9 5 [1, 2] Ex.new ∧
    ¬ Mesh s'.A s'.V (After (fun k => k = 1 ∨ k = 2) [1, 2] Ex.new n) := by
  have key : (match delone 100 none (fun _ => true) Ex.new 9 5 [1, 2] Ex.sp with
    | .done s' n => decide (n = 8 ∧ link s'.A 7 2 ≠ 0 ∧
        link s'.A (link s'.A 7 2 / 4) (link s'.A 7 2 % 4) ≠ 4 * 7 + 2)
    | _ => false) = true := by
    decide +kernel
  generalize hr : delone 100 none (fun _ => true) Ex.new 9 5 [1, 2] Ex.sp = R at key
  match R, hr with
  | .done s' n, hr =>
    obtain ⟨rfl, k1, k2⟩ := of_decide_eq_true key
    refine ⟨s', 8, rfl, Ex.sitP, fun hm => ?_⟩
    exact k2 (hm.adj.ok 7 (.inr ⟨3, by decide, rfl⟩) 2 (by decide) k1).2.2.1
  | .refused, _ => cases key
  | .nomem, _ => cases key
  | .ub, _ => cases key
  | .full, _ => cases key

end Mmg.Delone
