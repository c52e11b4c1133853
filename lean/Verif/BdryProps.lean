/-
  Further properties of the identification of the boundary triangles: their number, the vertices flagged as boundary ones,
  the new triangles, the last call and the orientation.
-/
import Verif.Bdry
import Mathlib.Data.List.Perm.Basic

namespace Mmg.Bdry

/-! ### Number of triangles -/

/-- **C78** : the number of triangles is the one counted before the arrays are made: nothing is written after their end. -/
theorem C78_number {M : Mesh} {O : Opt} (hw : Wf M) (hO : O.opnbdy = false) :
    (chkBdryTria M O).tri.length = ntmesh M := by
  have h := C78_triangles hw hO
  have hown : (ownT M O ++ ownP (mark M)).Nodup := by
    rw [List.nodup_append]
    refine ⟨ownT_nodup hw (.inl hO), ownP_nodup hw, ?_⟩
    intro a ha b hb e
    subst e
    obtain ⟨q, hq, rfl⟩ := List.mem_map.1 ha
    exact ownP_not hw (List.mem_filter.1 hq).1 hb
  rw [ntmesh_own hw (.inl hO), ← List.length_map (f := Tri.key)]
  refine List.Perm.length_eq ((List.perm_ext_iff_of_nodup h.nodup hown).2 fun f => ?_)
  rw [h.mem, own_iff hw (.inl hO)]

/-! ### Vertices -/

theorem touch_iff (l : List Tri) (f : Nat → Bool) (p : Nat) :
    touch l f p = true ↔ f p = true ∨ ∃ g ∈ l.map Tri.key, p ∈ g := by
  simp only [touch, Bool.or_eq_true, List.any_eq_true, List.mem_map, Tri.key, key]
  refine or_congr Iff.rfl ⟨?_, ?_⟩
  · rintro ⟨t, ht, h⟩
    refine ⟨_, ⟨t, ht, rfl⟩, ?_⟩
    simp only [beq_iff_eq] at h
    rcases h with (h | h) | h <;> simp [← h]
  · rintro ⟨_, ⟨t, ht, rfl⟩, h⟩
    refine ⟨t, ht, ?_⟩
    simp only [Multiset.insert_eq_cons, Multiset.mem_cons, Multiset.mem_singleton] at h
    simp only [beq_iff_eq]
    rcases h with h | h | h <;> simp [h]

theorem taut (A X Y B : Prop) (h : A → B) (h' : B → A ∨ X) : ((B ∨ X ∨ Y) ∨ Y ↔ A ∨ X ∨ Y) := by tauto

/-- The flags of the vertices when the first triangles of the result have the faces of `M.tri`. -/
theorem bdryTria_bdy (M : Mesh) (O : Opt) (n : Nat) (N : List (Multiset Nat))
    (h : (bdryTria M O n).tri.map Tri.key = M.tri.map Tri.key ++ N) (hc : O.iso = false ∨ n ≠ M.tri.length) (p : Nat) :
    (bdryTria M O n).bdy p = true ↔ M.bdy p = true ∨ ∃ t ∈ (bdryTria M O n).tri, p ∈ t.key := by
  have e : (bdryTria M O n).bdy = touch ((bdryTria M O n).tri.drop M.tri.length)
      (if n ≠ M.tri.length then touch (bdryTria M O n).tri (if O.iso then M.bdy else touch M.tri M.bdy)
        else if O.iso then M.bdy else touch M.tri M.bdy) := rfl
  have hd : ((bdryTria M O n).tri.drop M.tri.length).map Tri.key = N := by
    rw [List.map_drop, h, ← List.length_map (f := Tri.key), List.drop_left]
  have hm : (∃ t ∈ (bdryTria M O n).tri, p ∈ t.key) ↔ ∃ g ∈ M.tri.map Tri.key ++ N, p ∈ g := by
    rw [← h]; simp
  have ho : (∃ g ∈ M.tri.map Tri.key ++ N, p ∈ g) ↔ (∃ g ∈ M.tri.map Tri.key, p ∈ g) ∨ ∃ g ∈ N, p ∈ g := by
    simp only [List.mem_append, or_and_right, exists_or]
  rw [hm, e, touch_iff, hd, ho]
  by_cases hn : n = M.tri.length
  · have hi : O.iso = false := hc.resolve_right fun h => h hn
    rw [if_neg (by simpa using hn), if_neg (by simp [hi]), touch_iff]
    exact or_assoc
  · rw [if_pos hn, touch_iff, h, ho]
    refine (taut _ _ _ _ ?_ ?_)
    · intro h
      by_cases hi : O.iso = true
      · rw [if_pos hi]; exact h
      · rw [if_neg hi, touch_iff]; exact .inl h
    · intro h
      by_cases hi : O.iso = true
      · rw [if_pos hi] at h; exact .inl h
      · rw [if_neg hi, touch_iff] at h; exact h

/-- **C78** : after the identification the vertices of the triangles, and no other ones, have been flagged as boundary
vertices. -/
theorem C78_points {M : Mesh} {O : Opt} (hw : Wf M) (hO : O.opnbdy = false) (hc : O.iso = false ∨ M.np = 0) (p : Nat) :
    (chkBdryTria M O).bdy p = true ↔ M.bdy p = true ∨ ∃ t ∈ (chkBdryTria M O).tri, p ∈ t.key := by
  obtain ⟨h1, h2, h3, h4⟩ := sieve_spec (mark M) O (hashBdy (mark M) O) M.tri 1 (fun _ => 0) one_ne_zero
  have e : chkBdryTria M O =
      let r := if M.tri = [] then (([], 0) : List Tri × Nat) else sieve (mark M) O (hashBdy (mark M) O) M.tri 1 fun _ => 0
      if r.1.length = ntmesh M + (ntpres M O + r.2) ∧ M.np = 0 then
        ({ mark M with tri := r.1, bdy := touch r.1 M.bdy } : Mesh) else
        bdryTria { mark M with tri := r.1 } O (ntmesh M + (ntpres M O + r.2)) := rfl
  rw [sieve_user] at e
  set r := sieve (mark M) O (hashBdy (mark M) O) M.tri 1 fun _ => 0 with hr
  have h0 : r.2 = 0 := by
    rw [h4, List.countP_eq_zero]
    intro t _
    simp [inner, hO]
  have hc' : O.opnbdy = false ∨ M.hasXt = false := .inl hO
  by_cases hb : r.1.length = ntmesh M + (ntpres M O + r.2) ∧ M.np = 0
  · rw [e, if_pos hb]
    rw [touch_iff]
    simp
  · have e2 : chkBdryTria M O = bdryTria { mark M with tri := r.1 } O (ntmesh M + (ntpres M O + r.2)) := by
      rw [e, if_neg hb]
    rw [e2]
    have hsub : ∀ f ∈ r.1.map Tri.key, f ∈ ownT M O ++ ownP (mark M) := by
      intro f hf
      obtain ⟨t, ht, rfl⟩ := List.mem_map.1 hf
      exact (own_iff hw hc' _).2 ((hashBdy_ne hw hO _).1 ((h3 t).1 ht).1.2)
    have hown : (ownT M O ++ ownP (mark M)).Nodup := by
      rw [List.nodup_append]
      refine ⟨ownT_nodup hw hc', ownP_nodup hw, ?_⟩
      intro a ha b hb e
      subst e
      obtain ⟨q, hq, rfl⟩ := List.mem_map.1 ha
      exact ownP_not hw (List.mem_filter.1 hq).1 hb
    refine bdryTria_bdy { mark M with tri := r.1 } O _ ((newT { mark M with tri := r.1 } O ++ newP { mark M with tri := r.1 } O).map Tri.key) ?_ ?_ p
    · rw [bdryTria_tri { mark M with tri := r.1 } O _ h2 hown (fun f h => marked_own (O := O) hw f h) ?_]
      · rw [List.map_append, reqIn_map_key, List.map_append, List.map_append, List.append_assoc]
      · intro hl f hf
        refine pigeon h2 hsub ?_ f hf
        rw [← ntmesh_own hw hc', List.length_map]
        have hl : ntmesh M + (ntpres M O + r.2) = r.1.length := hl
        omega
    · rcases hc with hc | hc
      · exact .inl hc
      · right
        intro hl
        exact hb ⟨hl.symm, hc⟩

/-! ### New triangles -/

/-- A triangle made from the face `q` of a tetrahedron by the first analysis. -/
structure Fresh (M : Mesh) (O : Opt) (q : Nat × Nat) (t : Tri) : Prop where
  /-- the vertices in the order of the face, seen from the outside of the tetrahedron -/
  order : (t.a, t.b, t.c) = M.tface q
  /-- the tetrahedron is the one of greater reference -/
  own : M.tadj q.1 q.2 = 0 ∨ M.tref (M.tadj q.1 q.2 / 4) < M.tref q.1
  /-- the reference of the tetrahedron on the boundary of the domain -/
  out : M.tadj q.1 q.2 = 0 → t.ref = M.tref q.1
  /-- the smallest reference between two materials, the one of the level set if it is there -/
  between : M.tadj q.1 q.2 ≠ 0 → t.ref =
    if O.iso = true ∧ O.isLS (M.tref q.1) (M.tref (M.tadj q.1 q.2 / 4)) = true then O.isoref
    else M.tref (M.tadj q.1 q.2 / 4)
  tag : t.tag = (0, 0, 0) ∧ t.edg = (0, 0, 0)

/-- **C78** : a triangle that was not given by the user has the orientation of the tetrahedron of greater reference, the
reference given by the ones of the tetrahedra, and no tag. -/
theorem C78_new {M : Mesh} {O : Opt} (hw : Wf M) (hO : O.opnbdy = false) (hx : ∀ k, M.xt k = none) (hp : M.np = 0)
    {t : Tri} (ht : t ∈ (chkBdryTria M O).tri) (hn : t.key ∉ M.tri.map Tri.key) : ∃ q ∈ M.tfaces, Fresh M O q t := by
  obtain ⟨-, -, K, N, h1, h2, -, h4⟩ := C78_triangles hw hO
  have hs : ∀ u u', Same M u u' → u' = u := by
    intro u u' h
    refine h.2 ?_
    rintro ⟨-, q, hq, -⟩
    rw [pfaces_nil hp] at hq
    exact List.not_mem_nil hq
  have e : (chkBdryTria M O).tri = K ++ N := by
    have : List.Forall₂ (· = ·) (K ++ N) (chkBdryTria M O).tri := h1.imp fun u u' h => (hs u u' h).symm
    exact (List.forall₂_eq_eq_eq ▸ this : K ++ N = _).symm
  rw [e] at ht
  rcases List.mem_append.1 ht with ht | ht
  · exact absurd (List.mem_map_of_mem (h2.subset ht)) hn
  · rcases (h4 t ht).2 with ⟨q, hq, h5, rfl⟩ | ⟨q, hq, -⟩
    · refine ⟨q, hq, ?_⟩
      rw [tadd_eq hw (.inl hO) hq] at h5
      have h6 : M.tadj q.1 q.2 / 4 = 0 ↔ M.tadj q.1 q.2 = 0 := by
        rcases hw.tadj q hq with h | ⟨q', hq', _, h, _⟩
        · simp [h]
        · have := (mem_tfaces.1 hq').1.1
          omega
      have h7 : M.tadj q.1 q.2 = 0 ∨ M.tref (M.tadj q.1 q.2 / 4) < M.tref q.1 := by
        simpa only [tcount, Bool.or_eq_true, decide_eq_true_eq, gt_iff_lt] using h5
      refine ⟨rfl, h7, ?_, ?_, ?_⟩
      · intro h
        simp only [tnew, tnewref, hx, h6, h, ne_eq, not_true_eq_false, if_false]
      · intro h
        have h8 := min_eq_right (le_of_lt (h7.resolve_left h))
        simp only [tnew, tnewref, hx, h6, h, ne_eq, not_false_eq_true, if_true, h8]
        by_cases h9 : O.iso = true <;> simp [h9]
      · simp only [tnew, hx, and_self]
    · rw [pfaces_nil hp] at hq
      exact absurd hq List.not_mem_nil

/-! ### Last call -/

/-- The face is a boundary one, with the orientation of its triangle. -/
def Flag (M : Mesh) (q : Nat × Nat) : Prop := ∃ x, M.xt q.1 = some x ∧ x.bdy q.2 = true ∧ x.ori q.2 = true

/-- A face between tetrahedra of the same reference that is kept. -/
def Inside (M : Mesh) (f : Multiset Nat) : Prop :=
  ∃ q ∈ M.tfaces, fkey (M.tface q) = f ∧ M.tadj q.1 q.2 ≠ 0 ∧ M.tref q.1 = M.tref (M.tadj q.1 q.2 / 4) ∧ Flag M q

/-- **C78** (last call, internal triangles kept) : the triangles made from the data kept on the tetrahedra are, once each, the
boundary faces and the internal faces that have been kept. -/
theorem C78_last {M : Mesh} {O : Opt} (hw : Wf M) (hO : O.opnbdy = true) (hx : M.hasXt = true) (ht : M.tri = [])
    (high : ∀ q ∈ M.tfaces, M.tadj q.1 q.2 ≠ 0 → M.tref (M.tadj q.1 q.2 / 4) < M.tref q.1 → Flag M q)
    (once : ∀ q ∈ M.tfaces, ∀ q' ∈ M.tfaces, q ≠ q' → fkey (M.tface q) = fkey (M.tface q') → M.tref q.1 = M.tref q'.1 →
      Flag M q → ¬ Flag M q') :
    Found M O (fun f => Bd M f ∨ Inside M f) (chkBdryTria M O).tri := by
  have h6 : ∀ q ∈ M.tfaces, M.tadj q.1 q.2 / 4 = 0 ↔ M.tadj q.1 q.2 = 0 := by
    intro q hq
    rcases hw.tadj q hq with h | ⟨q', hq', _, h, _⟩
    · simp [h]
    · have := (mem_tfaces.1 hq').1.1
      omega
  have hf : ∀ q : Nat × Nat, (match M.xt q.1 with
      | none => false
      | some x => x.bdy q.2 && x.ori q.2) = true ↔ Flag M q := by
    intro q
    unfold Flag
    cases M.xt q.1 <;> simp
  have ha : ∀ q ∈ M.tfaces, tadd M O q = true ↔
      M.tadj q.1 q.2 = 0 ∨ (¬ M.tref q.1 < M.tref (M.tadj q.1 q.2 / 4) ∧ Flag M q) := by
    intro q hq
    rw [← hf q, ← h6 q hq]
    simp only [tadd, hO, hx, Bool.not_true, Bool.or_self, Bool.false_eq_true, if_false, Bool.or_eq_true, decide_eq_true_eq,
      Bool.and_eq_true, Bool.not_eq_true', decide_eq_false_iff_not]
    cases M.xt q.1 <;> rfl
  have hp : ∀ q ∈ M.tfaces, tpres M q = true ↔
      M.tadj q.1 q.2 ≠ 0 ∧ M.tref q.1 = M.tref (M.tadj q.1 q.2 / 4) ∧ Flag M q := by
    intro q _
    unfold tpres Flag
    cases M.xt q.1 <;> simp [and_assoc]
  have hT : ∀ f, f ∈ ownT M O ↔ OnT M f ∨ Inside M f := by
    intro f
    rw [onT_iff hw]
    simp only [ownT, List.mem_map, List.mem_filter]
    constructor
    · rintro ⟨q, ⟨hq, h⟩, hk⟩
      rcases (ha q hq).1 h with h | ⟨h1, h2⟩
      · exact .inl ⟨q, hq, by simp [tcount, h], hk⟩
      · rcases lt_or_eq_of_le (not_lt.1 h1) with h | h
        · exact .inl ⟨q, hq, by simp [tcount, h], hk⟩
        · by_cases h0 : M.tadj q.1 q.2 = 0
          · exact .inl ⟨q, hq, by simp [tcount, h0], hk⟩
          · exact .inr ⟨q, hq, hk, h0, h.symm, h2⟩
    · rintro (⟨q, hq, h, hk⟩ | ⟨q, hq, hk, h0, h1, h2⟩)
      · refine ⟨q, ⟨hq, (ha q hq).2 ?_⟩, hk⟩
        by_cases h0 : M.tadj q.1 q.2 = 0
        · exact .inl h0
        · simp only [tcount, h0, decide_false, Bool.false_or, decide_eq_true_eq] at h
          exact .inr ⟨not_lt.2 (le_of_lt h), high q hq h0 h⟩
      · exact ⟨q, ⟨hq, (ha q hq).2 (.inr ⟨by rw [h1]; exact lt_irrefl _, h2⟩)⟩, hk⟩
  have hB : ∀ f, f ∈ ownT M O ++ ownP (mark M) ↔ Bd M f ∨ Inside M f := by
    intro f
    have h1 := own_iff (O := { O with opnbdy := false }) hw (.inl rfl) f
    have h2 : f ∈ ownT M { O with opnbdy := false } ↔ OnT M f := by
      rw [onT_iff hw]
      simp only [ownT, List.mem_map, List.mem_filter]
      constructor
      · rintro ⟨q, ⟨hq, h⟩, hf⟩
        exact ⟨q, hq, by rw [← tadd_eq (O := { O with opnbdy := false }) hw (.inl rfl) hq]; exact h, hf⟩
      · rintro ⟨q, hq, h, hf⟩
        exact ⟨q, ⟨hq, by rw [tadd_eq (O := { O with opnbdy := false }) hw (.inl rfl) hq]; exact h⟩, hf⟩
    rw [List.mem_append, h2] at h1
    rw [← h1, List.mem_append, hT]
    tauto
  have hnd : (ownT M O).Nodup := by
    refine keys_nodup (tfaces_nodup M) _ _ ?_
    intro q hq q' hq' h h' he
    by_contra hne
    have t1 := hw.tall q hq q' hq' hne he
    have t2 := hw.tall q' hq' q hq (Ne.symm hne) he.symm
    have c1 := code4 (q := q') (mem_tfaces.1 hq').2.2
    have c2 := code4 (q := q) (mem_tfaces.1 hq).2.2
    have b1 := (mem_tfaces.1 hq).1.1
    have b2 := (mem_tfaces.1 hq').1.1
    rcases (ha q hq).1 h with h | ⟨h1, h2⟩
    · omega
    rcases (ha q' hq').1 h' with h' | ⟨h3, h4⟩
    · omega
    rw [t1, c1] at h1
    rw [t2, c2] at h3
    exact once q hq q' hq' hne he (le_antisymm (not_lt.1 h3) (not_lt.1 h1)) h2 h4
  rw [chk_tri, if_pos ht]
  refine assemble hw [] _ _ hnd (List.nil_sublist _) List.nodup_nil ?_ ?_ ?_
  · intro t; simp [ht]
  · intro f
    rw [hB]
    simp
  · intro hn f hf
    exfalso
    have hn : ntmesh M + (ntpres M O + 0) = 0 := hn
    rw [ntmesh_eq hw] at hn
    rcases List.mem_append.1 hf with hf | hf
    · obtain ⟨q, hq, -⟩ := List.mem_map.1 hf
      rw [List.mem_filter] at hq
      have z1 : M.tfaces.countP (tcount M) = 0 := by omega
      have z2 : M.tfaces.countP (tpres M) = 0 := by
        have : ntpres M O = M.tfaces.countP (tpres M) := by simp [ntpres, hO, hx]
        omega
      rw [List.countP_eq_zero] at z1 z2
      rcases (ha q hq.1).1 hq.2 with h | ⟨h1, h2⟩
      · exact z1 q hq.1 (by simp [tcount, h])
      · by_cases h0 : M.tadj q.1 q.2 = 0
        · exact z1 q hq.1 (by simp [tcount, h0])
        · rcases lt_or_eq_of_le (not_lt.1 h1) with h | h
          · exact z1 q hq.1 (by simp [tcount, h])
          · exact z2 q hq.1 ((hp q hq.1).2 ⟨h0, h.symm, h2⟩)
    · have : (ownP (mark M)).length = 0 := by omega
      rw [List.length_eq_zero_iff] at this
      rw [this] at hf
      exact List.not_mem_nil hf

/-! ### Orientation -/

/-- The face of the tetrahedron of greater reference, except if this reference is 2. -/
def Lead (M : Mesh) (q : Nat × Nat) : Prop :=
  M.tadj q.1 q.2 = 0 ∨ (M.tref (M.tadj q.1 q.2 / 4) < M.tref q.1 ∧ M.tref q.1 ≠ 2)

/-- The triangle at place `i` is the first one with its vertices. -/
def First (l : List Tri) (i : Nat) (t : Tri) : Prop := ∀ j < i, ∀ u, l[j]? = some u → u.key ≠ t.key

theorem idx_le {l : List (Multiset Nat)} {f : Multiset Nat} : ∀ {j : Nat} {hj : j < l.length}, l[j] = f → l.idxOf f ≤ j := by
  induction l with
  | nil => intro j hj; exact absurd hj (Nat.not_lt_zero _)
  | cons a l ih =>
    intro j hj h
    by_cases hf : a = f
    · rw [hf, List.idxOf_cons_self]; exact Nat.zero_le _
    · rw [List.idxOf_cons_ne _ hf]
      cases j with
      | zero => exact absurd h hf
      | succ j => exact Nat.succ_le_succ (ih h)

theorem perm_fold (M : Mesh) (T : Tab) (i : Nat) : ∀ (fs : List (Nat × Nat)) (s : List Tri),
    ((∀ q ∈ fs, permOwn M q = true → T (fkey (M.tface q)) ≠ i + 1) → (fs.foldl (fun l q =>
      if permOwn M q then
        (if T (fkey (M.tface q)) = 0 then l else l.modify (T (fkey (M.tface q)) - 1) fun t => t.turn (M.tface q))
      else l) s)[i]? = s[i]?) ∧
    (∀ q ∈ fs, permOwn M q = true → T (fkey (M.tface q)) = i + 1 →
      (∀ q' ∈ fs, permOwn M q' = true → T (fkey (M.tface q')) = i + 1 → q' = q) → (fs.foldl (fun l q =>
      if permOwn M q then
        (if T (fkey (M.tface q)) = 0 then l else l.modify (T (fkey (M.tface q)) - 1) fun t => t.turn (M.tface q))
      else l) s)[i]? = s[i]?.map fun t => t.turn (M.tface q)) := by
  intro fs
  induction fs with
  | nil => intro s; exact ⟨fun _ => rfl, fun q hq => absurd hq List.not_mem_nil⟩
  | cons p fs ih =>
    intro s
    have stay : ¬ (permOwn M p = true ∧ T (fkey (M.tface p)) = i + 1) →
        (if permOwn M p then
          (if T (fkey (M.tface p)) = 0 then s else s.modify (T (fkey (M.tface p)) - 1) fun t => t.turn (M.tface p))
          else s)[i]? = s[i]? := by
      intro h
      by_cases h1 : permOwn M p = true
      · rw [if_pos h1]
        by_cases h2 : T (fkey (M.tface p)) = 0
        · rw [if_pos h2]
        · have : ¬ T (fkey (M.tface p)) = i + 1 := fun h3 => h ⟨h1, h3⟩
          have : ¬ T (fkey (M.tface p)) - 1 = i := by omega
          rw [if_neg h2, List.getElem?_modify]
          simp only [if_neg this]
          exact id_map _
      · rw [if_neg h1]
    rw [List.foldl_cons]
    constructor
    · intro h
      rw [(ih _).1 fun q hq => h q (List.mem_cons_of_mem _ hq), stay]
      rintro ⟨h1, h2⟩
      exact h p (List.mem_cons_self ..) h1 h2
    · intro q hq h1 h2 hu
      by_cases hp : permOwn M p = true ∧ T (fkey (M.tface p)) = i + 1
      · have e := hu p (List.mem_cons_self ..) hp.1 hp.2
        subst e
        have e1 : (if permOwn M p then
            (if T (fkey (M.tface p)) = 0 then s else s.modify (T (fkey (M.tface p)) - 1) fun t => t.turn (M.tface p))
            else s)[i]? = s[i]?.map fun t => t.turn (M.tface p) := by
          have : T (fkey (M.tface p)) - 1 = i := by omega
          rw [if_pos hp.1, if_neg (by omega), List.getElem?_modify]
          simp only [if_pos this]
          rfl
        by_cases hr : ∃ q' ∈ fs, permOwn M q' = true ∧ T (fkey (M.tface q')) = i + 1
        · obtain ⟨q', hq', h3, h4⟩ := hr
          have e2 := hu q' (List.mem_cons_of_mem _ hq') h3 h4
          subst e2
          rw [(ih _).2 q' hq' h3 h4 fun r hr => hu r (List.mem_cons_of_mem _ hr), e1, Option.map_map]
          rfl
        · rw [(ih _).1 fun q' hq' h3 h4 => hr ⟨q', hq', h3, h4⟩, e1]
      · have hq' : q ∈ fs := by
          rcases List.mem_cons.1 hq with rfl | h
          · exact absurd ⟨h1, h2⟩ hp
          · exact h
        rw [(ih _).2 q hq' h1 h2 fun r hr => hu r (List.mem_cons_of_mem _ hr), stay hp]

/-- **C78** : before the identification, the first triangle given for a face of `Lead` gets the vertices of this face in its order;
the other triangles, the references and the edge data do not change. -/
theorem C78_perm {M : Mesh} (hw : Wf M) {i : Nat} {t : Tri} (ht : M.tri[i]? = some t) :
    ∃ t', (bdryPerm M).tri[i]? = some t' ∧ t'.key = t.key ∧ (t'.ref, t'.tag, t'.edg) = (t.ref, t.tag, t.edg) ∧
      (First M.tri i t → ∀ q ∈ M.tfaces, fkey (M.tface q) = t.key → Lead M q → (t'.a, t'.b, t'.c) = M.tface q) ∧
      ((¬ First M.tri i t ∨ ∀ q ∈ M.tfaces, fkey (M.tface q) = t.key → ¬ Lead M q) → t' = t) := by
  have h6 : ∀ q ∈ M.tfaces, M.tadj q.1 q.2 / 4 = 0 ↔ M.tadj q.1 q.2 = 0 := by
    intro q hq
    rcases hw.tadj q hq with h | ⟨q', hq', _, h, _⟩
    · simp [h]
    · have := (mem_tfaces.1 hq').1.1
      omega
  have hl : ∀ q ∈ M.tfaces, permOwn M q = true ↔ Lead M q := by
    intro q hq
    unfold Lead
    rw [← h6 q hq]
    simp only [permOwn, Bool.or_eq_true, Bool.not_eq_true', Bool.or_eq_false_iff, decide_eq_true_eq, decide_eq_false_iff_not, not_le,
      ne_eq]
  have hi : i < M.tri.length := (List.getElem?_eq_some_iff.1 ht).1
  have hk : (M.tri.map Tri.key)[i]? = some t.key := by rw [List.getElem?_map, ht]; rfl
  have hlast : ∀ f, tab M.tri f = i + 1 ↔ f = t.key ∧ First M.tri i t := by
    intro f
    rw [tab_eq]
    constructor
    · intro h
      split_ifs at h with hm
      have hidx : (M.tri.map Tri.key).idxOf f = i := by omega
      have hlt := List.idxOf_lt_length_iff.2 hm
      have e1 : (M.tri.map Tri.key)[(M.tri.map Tri.key).idxOf f]? = some f := by
        rw [List.getElem?_eq_getElem hlt, List.getElem_idxOf]
      rw [hidx, hk] at e1
      have e2 := (Option.some.inj e1).symm
      refine ⟨e2, ?_⟩
      intro j hj u hu hc
      have hj' : (M.tri.map Tri.key)[j]? = some f := by rw [List.getElem?_map, hu, e2, ← hc]; rfl
      obtain ⟨hjl, hje⟩ := List.getElem?_eq_some_iff.1 hj'
      have := idx_le hje
      omega
    · rintro ⟨rfl, hf⟩
      have hm : t.key ∈ M.tri.map Tri.key := List.mem_map_of_mem (List.mem_of_getElem? ht)
      rw [if_pos hm]
      have hle : (M.tri.map Tri.key).idxOf t.key ≤ i := by
        obtain ⟨_, he⟩ := List.getElem?_eq_some_iff.1 hk
        exact idx_le he
      rcases Nat.lt_or_eq_of_le hle with h | h
      · exfalso
        have hlt := List.idxOf_lt_length_iff.2 hm
        have e1 : (M.tri.map Tri.key)[(M.tri.map Tri.key).idxOf t.key]? = some t.key := by
          rw [List.getElem?_eq_getElem hlt, List.getElem_idxOf]
        rw [List.getElem?_map] at e1
        obtain ⟨u, hu, hu'⟩ := Option.map_eq_some_iff.1 e1
        exact hf _ h u hu hu'
      · rw [h]
  have huniq : ∀ q ∈ M.tfaces, ∀ q' ∈ M.tfaces, Lead M q → Lead M q' → fkey (M.tface q) = fkey (M.tface q') → q = q' := by
    intro q hq q' hq' h h' he
    refine tcount_uniq hw hq hq' ?_ ?_ he
    · rcases h with h | h
      · simp [tcount, h]
      · simp [tcount, h.1]
    · rcases h' with h | h
      · simp [tcount, h]
      · simp [tcount, h.1]
  have hfold := perm_fold M (tab M.tri) i M.tfaces M.tri
  by_cases hc : First M.tri i t ∧ ∃ q ∈ M.tfaces, fkey (M.tface q) = t.key ∧ Lead M q
  · obtain ⟨hf, q, hq, he, hld⟩ := hc
    have e := hfold.2 q hq ((hl q hq).2 hld) ((hlast _).2 ⟨he, hf⟩) (by
      intro q' hq' h1 h2
      exact huniq q' hq' q hq ((hl q' hq').1 h1) hld (((hlast _).1 h2).1.trans he.symm))
    rw [ht] at e
    refine ⟨_, e, ?_, rfl, ?_, ?_⟩
    · show key (M.tface q).1 (M.tface q).2.1 (M.tface q).2.2 = t.key
      exact he
    · intro _ q' hq' he' hld'
      have := huniq q' hq' q hq hld' hld (he'.trans he.symm)
      subst this
      rfl
    · rintro (h | h)
      · exact absurd hf h
      · exact absurd hld (h q hq he)
  · have e := hfold.1 (by
      intro q hq h1 h2
      obtain ⟨h3, h4⟩ := (hlast _).1 h2
      exact hc ⟨h4, q, hq, h3, (hl q hq).1 h1⟩)
    rw [ht] at e
    refine ⟨t, e, rfl, rfl, ?_, fun _ => rfl⟩
    intro hf q hq he hld
    exact absurd ⟨hf, q, hq, he, hld⟩ hc

/-! ### Cases -/

namespace Ex

/-- Two tetrahedra with the face 2 3 4, and a prism on a face of the second one; `r` is the reference of the second one. -/
def mesh (r : Int) (tri : List Tri) (np : Nat) : Mesh where
  ne := 2
  tv k i := if k = 1 then [1, 2, 3, 4].getD i 0 else [5, 2, 4, 3].getD i 0
  tref k := if k = 1 then 1 else if k = 2 then r else 0
  tok _ := true
  tadj k i := if i = 0 then (if k = 1 then 8 else 4) else 0
  np := np
  pv _ i := [5, 4, 2, 6, 7, 8].getD i 0
  pref _ := 7
  pok _ := true
  padj _ _ := 0
  tri := tri
  bdy _ := false
  hasXt := false
  xt _ := none

def opt : Opt := ⟨false, false, 10, fun _ _ => false, fun _ _ => ((0, 0, 0), (0, 0, 0))⟩

/-- A triangle of the user. -/
def tr (a b c : Nat) (ref : Int) : Tri := ⟨a, b, c, ref, (0, 0, 0), (0, 0, 0)⟩

theorem wf (r : Int) (tri : List Tri) : Wf (mesh r tri 1) where
  tadj := by
    show ∀ q ∈ (mesh 0 [] 1).tfaces, (mesh 0 [] 1).tadj q.1 q.2 = 0 ∨ ∃ q' ∈ (mesh 0 [] 1).tfaces, q' ≠ q ∧
      (mesh 0 [] 1).tadj q.1 q.2 = 4 * q'.1 + q'.2 ∧ fkey ((mesh 0 [] 1).tface q') = fkey ((mesh 0 [] 1).tface q)
    decide +kernel
  tall := by
    show ∀ q ∈ (mesh 0 [] 1).tfaces, ∀ q' ∈ (mesh 0 [] 1).tfaces, q ≠ q' →
      fkey ((mesh 0 [] 1).tface q) = fkey ((mesh 0 [] 1).tface q') → (mesh 0 [] 1).tadj q.1 q.2 = 4 * q'.1 + q'.2
    decide +kernel
  padj := fun _ _ => .inl rfl
  pall := by
    show ∀ q ∈ (mesh 0 [] 1).pfaces, ∀ q' ∈ (mesh 0 [] 1).pfaces, q ≠ q' →
      fkey ((mesh 0 [] 1).pface q) = fkey ((mesh 0 [] 1).pface q') → (mesh 0 [] 1).padj q.1 q.2 = 5 * q'.1 + q'.2
    decide +kernel
  mixed := by
    show ∀ q ∈ (mesh 0 [] 1).tfaces, ∀ q' ∈ (mesh 0 [] 1).pfaces,
      fkey ((mesh 0 [] 1).tface q) = fkey ((mesh 0 [] 1).pface q') →
      (mesh 0 [] 1).tadj q.1 q.2 = 0 ∧ (mesh 0 [] 1).padj q'.1 q'.2 = 0
    decide +kernel

theorem wf0 (r : Int) (tri : List Tri) : Wf (mesh r tri 0) where
  tadj := (wf r tri).tadj
  tall := (wf r tri).tall
  padj := fun q hq => absurd hq (by rw [pfaces_nil rfl]; exact List.not_mem_nil)
  pall := fun q hq => absurd hq (by rw [pfaces_nil rfl]; exact List.not_mem_nil)
  mixed := fun q _ q' hq' => absurd hq' (by rw [pfaces_nil rfl]; exact List.not_mem_nil)

/-- A boundary triangle given twice, one between the materials and one that is no face. -/
def user : List Tri := [tr 1 2 3 21, tr 4 2 3 22, tr 2 1 3 23, tr 1 2 5 24]

example := C78_triangles (wf 3 user) (O := opt) rfl
example := C78_number (wf 3 user) (O := opt) rfl
example := fun p => C78_points (wf 3 user) (O := opt) rfl (.inl rfl) p
example := C78_open (wf0 1 user) (O := { opt with opnbdy := true }) rfl rfl rfl
example := C78_perm (wf 3 user) (i := 1) (t := tr 4 2 3 22) rfl

/-- 8 triangles: 2 of the user, 5 new ones from the tetrahedra (one of them required) and one from the prism. -/
example : (chkBdryTria (mesh 3 user 1) opt).tri =
    [tr 1 2 3 21, tr 4 2 3 22, tr 1 4 3 1, tr 1 2 4 1, tr 5 3 4 3, tr 5 2 3 3, (tr 5 4 2 3).req, tr 6 7 8 0] := by
  decide +kernel

/-- The triangle between the materials gets the order of the tetrahedron of greater reference. -/
example : ((bdryPerm (mesh 3 user 1)).tri.map fun t => (t.a, t.b, t.c)) = [(1, 3, 2), (2, 4, 3), (2, 1, 3), (1, 2, 5)] := by
  decide +kernel

example : ∃ t ∈ (chkBdryTria (mesh 3 user 0) opt).tri, t.key ∉ user.map Tri.key := ⟨tr 1 4 3 1, by decide +kernel, by decide +kernel⟩
example := C78_new (wf0 3 user) (O := opt) rfl (fun _ => rfl) rfl (t := tr 1 4 3 1) (by decide +kernel) (by decide +kernel)

/-- Finding: the reference 2 is an exception, also without level set: the triangle keeps the order of the user, here the one
of the tetrahedron of smaller reference. -/
theorem C78_ref2_observed : ((bdryPerm (mesh 2 [tr 2 3 4 22] 0)).tri.map fun t => (t.a, t.b, t.c)) = [(2, 3, 4)] ∧
    ((bdryPerm (mesh 3 [tr 2 3 4 22] 0)).tri.map fun t => (t.a, t.b, t.c)) = [(2, 4, 3)] := by
  decide +kernel

/-- All the triangles of the mesh, given by the user. -/
def all : List Tri := [tr 1 2 3 1, tr 4 2 3 1, tr 1 4 3 1, tr 1 2 4 1, tr 5 3 4 3, tr 5 2 3 3, tr 5 4 2 3, tr 6 7 8 0]

/-- Finding: in level-set mode with a prism, when the user gives all the triangles no vertex is flagged as a boundary one;
they are when a triangle is missing or without prism. -/
theorem C78_points_iso_observed :
    (∀ p < 9, (chkBdryTria (mesh 3 all 1) { opt with iso := true }).bdy p = false) ∧
      (chkBdryTria (mesh 3 all.tail 1) { opt with iso := true }).bdy 1 = true ∧
      (chkBdryTria (mesh 3 all 0) { opt with iso := true }).bdy 1 = true := by
  decide +kernel

/-- Two tetrahedra of the same reference; the face between them is kept with the orientation of the first one. -/
def kept : Mesh := { mesh 1 [] 1 with
  hasXt := true
  xt := fun k => some ⟨fun _ => 5, fun i => i == 0, fun i => k == 1 && i == 0, fun _ => 0, fun _ => 0⟩ }

theorem wfk : Wf kept := ⟨(wf 1 []).tadj, (wf 1 []).tall, (wf 1 []).padj, (wf 1 []).pall, (wf 1 []).mixed⟩

example := C78_last wfk (O := { opt with opnbdy := true }) rfl rfl rfl
  (by
    intro q hq h1 h2
    exact absurd h2 (by
      have : ∀ q ∈ kept.tfaces, ¬ (kept.tref (kept.tadj q.1 q.2 / 4) < kept.tref q.1 ∧ kept.tadj q.1 q.2 ≠ 0) := by
        decide +kernel
      exact fun h => this q hq ⟨h, h1⟩))
  (by
    rintro q hq q' hq' hne he - ⟨x, hx, -, h1⟩ ⟨x', hx', -, h2⟩
    cases Option.some.inj hx
    cases Option.some.inj hx'
    simp only [Bool.and_eq_true, beq_iff_eq] at h1 h2
    exact hne (Prod.ext (h1.1.trans h2.1.symm) (h1.2.trans h2.2.symm)))

/-- The face between the tetrahedra is there once, with the reference kept on the tetrahedron. -/
example : ((chkBdryTria kept { opt with opnbdy := true }).tri.map fun t => (t.a, t.b, t.c, t.ref)) =
    [(2, 3, 4, 5), (1, 4, 3, 5), (1, 2, 4, 5), (1, 3, 2, 5), (5, 3, 4, 5), (5, 2, 3, 5), (5, 4, 2, 5), (6, 7, 8, 0)] := by
  decide +kernel

end Ex

end Mmg.Bdry
