/-
  The references of the triangles of the user through the analysis and the reconstruction; cases.
-/
import Verif.BdrySet

namespace Mmg.Bdry

theorem perm_length (M : Mesh) : (bdryPerm M).tri.length = M.tri.length := by
  have : ∀ (T : Tab) (fs : List (Nat × Nat)) (s : List Tri), (fs.foldl (fun l q =>
      if permOwn M q then
        (if T (fkey (M.tface q)) = 0 then l else l.modify (T (fkey (M.tface q)) - 1) fun t => t.turn (M.tface q))
      else l) s).length = s.length := by
    intro T fs
    induction fs with
    | nil => intro s; rfl
    | cons q fs ih =>
      intro s
      rw [List.foldl_cons, ih]
      split_ifs
      · rfl
      · exact List.length_modify ..
      · rfl
  exact this _ _ _

theorem perm_kr {M : Mesh} (hw : Wf M) : (bdryPerm M).tri.map Tri.kr = M.tri.map Tri.kr := by
  refine List.ext_getElem? fun i => ?_
  rw [List.getElem?_map, List.getElem?_map]
  cases h : M.tri[i]? with
  | none =>
    have h1 := List.getElem?_eq_none_iff.1 h
    rw [List.getElem?_eq_none_iff.2 (by rw [perm_length]; exact h1)]
  | some t =>
    obtain ⟨t', h1, h2, h3, -⟩ := C78_perm hw h
    rw [h1]
    have h4 : t'.ref = t.ref := congrArg Prod.fst h3
    show some t'.kr = some t.kr
    rw [Tri.kr, Tri.kr, h2, h4]

theorem find_kr {l l' : List Tri} (h : l.map Tri.kr = l'.map Tri.kr) (f : Multiset Nat) :
    (l.find? fun u => decide (u.key = f)).map Tri.kr = (l'.find? fun u => decide (u.key = f)).map Tri.kr := by
  have e : ∀ l : List Tri, (l.find? fun u => decide (u.key = f)).map Tri.kr = (l.map Tri.kr).find? fun a => decide (a.1 = f) := by
    intro l
    rw [List.find?_map]
    rfl
  rw [e, e, h]

theorem mark_nil {M : Mesh} (hp : M.np = 0) : mark M = M := by
  have : ∀ k i, (k, i) ∉ M.pfaces := by intro k i; rw [pfaces_nil hp]; exact List.not_mem_nil
  unfold mark
  simp [this]

theorem chk_same {M : Mesh} (O : Opt) (hp : M.np = 0) : ∃ l b, chkBdryTria M O = { M with tri := l, bdy := b } := by
  unfold chkBdryTria
  simp only [mark_nil hp]
  split_ifs
  · exact ⟨_, _, rfl⟩
  · exact ⟨_, _, rfl⟩
  · exact ⟨_, _, rfl⟩
  · exact ⟨_, _, rfl⟩

/-- The orientation of the triangles, the identification of the surface, the transfer to the tetrahedra. -/
def analysis (M : Mesh) (O : Opt) : Mesh := (bdrySet (chkBdryTria (bdryPerm M) O) O).1

/-- **C79** : through the whole analysis and the final reconstruction, a triangle of the user (the first one given for its face) that is a
boundary face is there, once, with its reference. -/
theorem C79_user {M : Mesh} {O : Opt} (hw : Wf M) (hO : O.opnbdy = false) (hp : M.np = 0) {t : Tri} (hb : Bd M t.key)
    (hf : M.tri.find? (fun u => decide (u.key = t.key)) = some t) :
    (∃ t' ∈ (rebuild (analysis M O) O).tri, t'.key = t.key ∧ t'.ref = t.ref) ∧
      ((rebuild (analysis M O) O).tri.map Tri.key).Nodup ∧
      ∀ f, f ∈ (rebuild (analysis M O) O).tri.map Tri.key ↔ Bd M f := by
  have hwP : Wf (bdryPerm M) := wf_change hw rfl rfl rfl rfl rfl rfl
  have hF := C78_triangles hwP hO
  obtain ⟨l, b, e⟩ := chk_same O (show (bdryPerm M).np = 0 from hp)
  have hwA : Wf (chkBdryTria (bdryPerm M) O) := by rw [e]; exact wf_change hw rfl rfl rfl rfl rfl rfl
  have hpA : (chkBdryTria (bdryPerm M) O).np = 0 := by rw [e]; exact hp
  have hbA : ∀ f, f ∈ (chkBdryTria (bdryPerm M) O).tri.map Tri.key ↔ Bd (chkBdryTria (bdryPerm M) O) f := by
    intro f; rw [hF.mem]; rw [e]; exact Iff.rfl
  have hbM : ∀ f, f ∈ (chkBdryTria (bdryPerm M) O).tri.map Tri.key ↔ Bd M f := by
    intro f; rw [hF.mem]; exact Iff.rfl
  have hne : (chkBdryTria (bdryPerm M) O).tri ≠ [] := by
    intro h
    have := (hbM t.key).2 hb
    rw [h] at this
    exact List.not_mem_nil this
  have hperm := C79_refs hwA hO hpA hF.nodup hbA hne
  have hkey : ((rebuild (analysis M O) O).tri.map Tri.key).Perm ((chkBdryTria (bdryPerm M) O).tri.map Tri.key) := by
    have := hperm.map Prod.fst
    rw [List.map_map, List.map_map] at this
    exact this
  refine ⟨?_, hkey.nodup_iff.2 hF.nodup, fun f => (hkey.mem_iff).trans (hbM f)⟩
  -- the triangle is kept by the identification
  obtain ⟨-, -, K, N, h1, -, h3, -⟩ := hF
  have hk := find_kr (perm_kr hw) t.key
  rw [hf] at hk
  obtain ⟨u, hu, hu'⟩ := Option.map_eq_some_iff.1 hk
  have huk : u.key = t.key := congrArg Prod.fst hu'
  have huK : u ∈ K := (h3 u).2 ⟨by rw [huk]; exact hb, by rw [huk]; exact hu⟩
  have hs : ∀ v v', Same (bdryPerm M) v v' → v = v' := by
    intro v v' h
    refine (h.2 ?_).symm
    rintro ⟨-, q, hq, -⟩
    rw [pfaces_nil (show (bdryPerm M).np = 0 from hp)] at hq
    exact List.not_mem_nil hq
  have e2 : K ++ N = (chkBdryTria (bdryPerm M) O).tri := by
    have : List.Forall₂ (· = ·) (K ++ N) (chkBdryTria (bdryPerm M) O).tri := h1.imp fun v v' h => hs v v' h
    exact List.forall₂_eq_eq_eq ▸ this
  have huA : u ∈ (chkBdryTria (bdryPerm M) O).tri := by rw [← e2]; exact List.mem_append_left _ huK
  have := hperm.mem_iff.2 (List.mem_map_of_mem (f := Tri.kr) huA)
  obtain ⟨t', ht', h⟩ := List.mem_map.1 this
  refine ⟨t', ht', ?_, ?_⟩
  · exact (congrArg Prod.fst h).trans huk
  · exact (congrArg Prod.snd h).trans (congrArg Prod.snd hu')

/-! ### Internal triangles kept -/

theorem key_cases {a b c x y z : Nat} (h : key a b c = key x y z) : (a, b, c) = (x, y, z) ∨ (a, b, c) = (y, z, x) ∨ (a, b, c) = (z, x, y) ∨
    (a, b, c) = (x, z, y) ∨ (a, b, c) = (y, x, z) ∨ (a, b, c) = (z, y, x) := by
  have two : ∀ {b c y z : Nat}, ({b, c} : Multiset Nat) = {y, z} → (b = y ∧ c = z) ∨ (b = z ∧ c = y) := by
    intro b c y z h
    have hb : b ∈ ({y, z} : Multiset Nat) := by rw [← h]; simp
    simp only [Multiset.insert_eq_cons, Multiset.mem_cons, Multiset.mem_singleton] at hb
    rcases hb with rfl | rfl
    · simp only [Multiset.insert_eq_cons, Multiset.cons_inj_right, Multiset.singleton_inj] at h
      exact .inl ⟨rfl, h⟩
    · rw [Multiset.pair_comm y b] at h
      simp only [Multiset.insert_eq_cons, Multiset.cons_inj_right, Multiset.singleton_inj] at h
      exact .inr ⟨rfl, h⟩
  have ha : a ∈ key x y z := by rw [← h]; simp [key]
  unfold key at h ha
  simp only [Multiset.insert_eq_cons, Multiset.mem_cons, Multiset.mem_singleton] at h ha
  rcases ha with rfl | rfl | rfl
  · rw [Multiset.cons_inj_right] at h
    rcases two h with ⟨rfl, rfl⟩ | ⟨rfl, rfl⟩ <;> simp
  · rw [Multiset.cons_swap x a, Multiset.cons_inj_right] at h
    rcases two h with ⟨rfl, rfl⟩ | ⟨rfl, rfl⟩ <;> simp
  · have : (x ::ₘ y ::ₘ {a} : Multiset Nat) = a ::ₘ x ::ₘ {y} := by
      rw [← Multiset.insert_eq_cons y, Multiset.pair_comm, Multiset.insert_eq_cons, Multiset.cons_swap]
    rw [this, Multiset.cons_inj_right] at h
    rcases two h with ⟨rfl, rfl⟩ | ⟨rfl, rfl⟩ <;> simp

theorem along_cases (t : Tri) (a b c : Nat) :
    Along t (a, b, c) ↔ (t.a, t.b, t.c) = (a, b, c) ∨ (t.b, t.c, t.a) = (a, b, c) ∨ (t.c, t.a, t.b) = (a, b, c) := by
  constructor
  · rintro ⟨u, rfl | rfl | rfl, h⟩
    · exact .inl h
    · exact .inr (.inl h)
    · exact .inr (.inr h)
  · rintro (h | h | h)
    · exact ⟨t, .inl rfl, h⟩
    · exact ⟨t.rot, .inr (.inl rfl), h⟩
    · exact ⟨t.rot.rot, .inr (.inr rfl), h⟩

/-- The face seen from the other side. -/
def Back (f g : Nat × Nat × Nat) : Prop :=
  (f.1 ≠ f.2.1 ∧ f.2.1 ≠ f.2.2 ∧ f.1 ≠ f.2.2) ∧
    (g = (f.1, f.2.2, f.2.1) ∨ g = (f.2.2, f.2.1, f.1) ∨ g = (f.2.1, f.1, f.2.2))

theorem back_along {f g : Nat × Nat × Nat} (h : Back f g) {t : Tri} (hk : t.key = fkey f) : Along t f ↔ ¬ Along t g := by
  obtain ⟨x, y, z⟩ := f
  obtain ⟨⟨h1, h2, h3⟩, h4⟩ := h
  obtain ⟨a, b, c, r, tg, ed⟩ := t
  have hk' : key a b c = key x y z := hk
  simp only at h1 h2 h3 h4
  have n1 := Ne.symm h1
  have n2 := Ne.symm h2
  have n3 := Ne.symm h3
  rcases h4 with rfl | rfl | rfl <;> rw [along_cases, along_cases] <;> rcases key_cases hk' with e | e | e | e | e | e <;>
    (simp only [Prod.mk.injEq] at e; obtain ⟨rfl, rfl, rfl⟩ := e; simp [h1, h2, h3, n1, n2, n3])

/-- **C79** (internal triangles kept) : in a mesh without reference 2 where neighbours see their face from opposite sides, a triangle of the
user (the first one given for its face) that is a face of a tetrahedron, on the boundary or inside, is in the final mesh, once, with its
reference. -/
theorem C79_user_open {M : Mesh} {O : Opt} (hw : Wf M) (hO : O.opnbdy = true) (hx : M.hasXt = false) (hp : M.np = 0)
    (h2 : ∀ k, M.tref k ≠ 2)
    (hback : ∀ q ∈ M.tfaces, ∀ q' ∈ M.tfaces, q ≠ q' → fkey (M.tface q) = fkey (M.tface q') → Back (M.tface q) (M.tface q'))
    {t : Tri} (hb : ∃ q ∈ M.tfaces, fkey (M.tface q) = t.key)
    (hf : M.tri.find? (fun u => decide (u.key = t.key)) = some t) :
    (∃ t' ∈ (rebuild (analysis M O) O).tri, t'.key = t.key ∧ t'.ref = t.ref) ∧
      ((rebuild (analysis M O) O).tri.map Tri.key).Nodup ∧
      ∀ f, f ∈ (rebuild (analysis M O) O).tri.map Tri.key ↔
        Bd M f ∨ (f ∈ M.tri.map Tri.key ∧ ∃ q ∈ M.tfaces, fkey (M.tface q) = f) := by
  have hwP : Wf (bdryPerm M) := wf_change hw rfl rfl rfl rfl rfl rfl
  have hF := C78_open hwP hO hx hp
  have hkeys : (bdryPerm M).tri.map Tri.key = M.tri.map Tri.key := by
    have := congrArg (List.map Prod.fst) (perm_kr hw)
    rw [List.map_map, List.map_map] at this
    exact this
  obtain ⟨l, b, e⟩ := chk_same O (show (bdryPerm M).np = 0 from hp)
  have hwA : Wf (chkBdryTria (bdryPerm M) O) := by rw [e]; exact wf_change hw rfl rfl rfl rfl rfl rfl
  have hpA : (chkBdryTria (bdryPerm M) O).np = 0 := by rw [e]; exact hp
  have hbM : ∀ f, f ∈ (chkBdryTria (bdryPerm M) O).tri.map Tri.key ↔
      Bd M f ∨ (f ∈ M.tri.map Tri.key ∧ ∃ q ∈ M.tfaces, fkey (M.tface q) = f) := by
    intro f; rw [hF.mem, hkeys]; exact Iff.rfl
  have hwant : Bd M t.key ∨ (t.key ∈ M.tri.map Tri.key ∧ ∃ q ∈ M.tfaces, fkey (M.tface q) = t.key) :=
    .inr ⟨List.mem_map_of_mem (List.mem_of_find?_eq_some hf), hb⟩
  have hne : (chkBdryTria (bdryPerm M) O).tri ≠ [] := by
    intro h
    have := (hbM t.key).2 hwant
    rw [h] at this
    exact List.not_mem_nil this
  obtain ⟨hnd, -, K, N, h1, hsub, h3, h4⟩ := hF
  have hs : ∀ v v', Same (bdryPerm M) v v' → v = v' := by
    intro v v' h
    refine (h.2 ?_).symm
    rintro ⟨-, q, hq, -⟩
    rw [pfaces_nil (show (bdryPerm M).np = 0 from hp)] at hq
    exact List.not_mem_nil hq
  have e2 : K ++ N = (chkBdryTria (bdryPerm M) O).tri := by
    have : List.Forall₂ (· = ·) (K ++ N) (chkBdryTria (bdryPerm M) O).tri := h1.imp fun v v' h => hs v v' h
    exact List.forall₂_eq_eq_eq ▸ this
  have a1 : (chkBdryTria (bdryPerm M) O).tfaces = M.tfaces := by rw [e]; rfl
  have a2 : (chkBdryTria (bdryPerm M) O).tface = M.tface := by rw [e]; rfl
  have a3 : (chkBdryTria (bdryPerm M) O).tadj = M.tadj := by rw [e]; rfl
  have a4 : (chkBdryTria (bdryPerm M) O).tref = M.tref := by rw [e]; rfl
  have hperm := C79_refs_open hwA hO hpA hnd
    (by
      intro f h
      refine (hbM f).2 (.inl ?_)
      rw [e] at h
      exact h)
    (by
      intro u hu
      rw [a1, a2]
      rcases (hbM _).1 (List.mem_map_of_mem hu) with (⟨q, hq, h, -⟩ | ⟨q, hq, -⟩) | ⟨-, h⟩
      · exact ⟨q, hq, h⟩
      · rw [pfaces_nil hp] at hq; exact absurd hq List.not_mem_nil
      · exact h)
    hne
    (by
      rw [a1, a2, a3, a4]
      intro q hq hadj hlt u hu hk
      rw [← e2] at hu
      have hown : ∀ q' ∈ M.tfaces, (M.tadj q'.1 q'.2 = 0 ∨ M.tref (M.tadj q'.1 q'.2 / 4) < M.tref q'.1) →
          fkey (M.tface q') = fkey (M.tface q) → q' = q := by
        intro q' hq' hc he
        refine tcount_uniq hw hq' hq ?_ ?_ he
        · rcases hc with h | h <;> simp [tcount, h]
        · simp [tcount, hlt]
      rcases List.mem_append.1 hu with hu | hu
      · -- a triangle of the user, turned
        have hfind := ((h3 u).1 hu).2
        obtain ⟨i, hi, hui, hfirst⟩ : ∃ i, ∃ hi : i < (bdryPerm M).tri.length, (bdryPerm M).tri[i] = u ∧
            ∀ j (hj : j < i), ((bdryPerm M).tri[j]'(hj.trans hi)).key ≠ u.key := by
          obtain ⟨-, i, hi, h5, h6⟩ := List.find?_eq_some_iff_getElem.1 hfind
          refine ⟨i, hi, h5, fun j hj => ?_⟩
          have := h6 j hj
          simpa using this
        have hi' : i < M.tri.length := by rw [← perm_length]; exact hi
        obtain ⟨t', g1, g2, -, g4, -⟩ := C78_perm hw (List.getElem?_eq_getElem hi')
        rw [List.getElem?_eq_getElem hi, hui] at g1
        cases g1
        have hkj : ∀ j (h : j < (bdryPerm M).tri.length) (h' : j < M.tri.length), ((bdryPerm M).tri[j]).key = (M.tri[j]).key := by
          intro j h h'
          have := congrArg (fun l => l[j]?) hkeys
          simp only [List.getElem?_map, List.getElem?_eq_getElem h, List.getElem?_eq_getElem h', Option.map_some] at this
          exact Option.some.inj this
        have hF1 : First M.tri i M.tri[i] := by
          intro j hj v hv
          obtain ⟨hjl, hjv⟩ := List.getElem?_eq_some_iff.1 hv
          have := hfirst j hj
          rw [hkj j (hj.trans hi) hjl, hjv, g2] at this
          exact this
        exact ⟨u, turn_refl u, g4 hF1 q hq (hk.symm.trans g2) (.inr ⟨hlt, h2 _⟩)⟩
      · -- a new one
        rcases (h4 u hu).2 with ⟨q', hq', h5, rfl⟩ | ⟨q', hq', -⟩
        · rw [tadd_eq hwP (.inr hx) hq'] at h5
          have h6 : M.tadj q'.1 q'.2 = 0 ∨ M.tref (M.tadj q'.1 q'.2 / 4) < M.tref q'.1 := by
            simp only [tcount, Bool.or_eq_true, decide_eq_true_eq, gt_iff_lt] at h5
            exact h5
          rw [tnew_key] at hk
          have := hown q' hq' h6 hk
          subst this
          exact ⟨_, turn_refl _, rfl⟩
        · rw [pfaces_nil (show (bdryPerm M).np = 0 from hp)] at hq'
          exact absurd hq' List.not_mem_nil)
    (by
      rw [a1, a2]
      intro q hq q' hq' hne' u _ hk hk'
      exact back_along (hback q hq q' hq' hne' (hk.symm.trans hk')) hk)
  have hkey : ((rebuild (analysis M O) O).tri.map Tri.key).Perm ((chkBdryTria (bdryPerm M) O).tri.map Tri.key) := by
    have := hperm.map Prod.fst
    rw [List.map_map, List.map_map] at this
    exact this
  refine ⟨?_, hkey.nodup_iff.2 hnd, fun f => (hkey.mem_iff).trans (hbM f)⟩
  have hk := find_kr (perm_kr hw) t.key
  rw [hf] at hk
  obtain ⟨u, hu, hu'⟩ := Option.map_eq_some_iff.1 hk
  have huk : u.key = t.key := congrArg Prod.fst hu'
  have huK : u ∈ K := (h3 u).2 ⟨by rw [huk, hkeys]; exact hwant, by rw [huk]; exact hu⟩
  have huA : u ∈ (chkBdryTria (bdryPerm M) O).tri := by rw [← e2]; exact List.mem_append_left _ huK
  have := hperm.mem_iff.2 (List.mem_map_of_mem (f := Tri.kr) huA)
  obtain ⟨t', ht', h⟩ := List.mem_map.1 this
  refine ⟨t', ht', ?_, ?_⟩
  · exact (congrArg Prod.fst h).trans huk
  · exact (congrArg Prod.snd h).trans (congrArg Prod.snd hu')

/-! ### Cases -/

namespace Ex

/-- All the boundary faces of the two tetrahedra, with a required triangle. -/
def six : List Tri := [⟨1, 4, 3, 31, (4, 5, 4), (0, 0, 0)⟩, tr 1 2 4 32, tr 1 3 2 33, tr 5 3 4 34, tr 5 2 3 35, tr 5 4 2 36]

example := C79_classic (wf0 3 (tr 2 4 3 37 :: six)) (O := opt) rfl (by decide +kernel) (List.cons_ne_nil _ _)

theorem bd_seven (f : Multiset Nat) :
    f ∈ (tr 2 4 3 37 :: six).map Tri.key ↔ Bd (mesh 3 (tr 2 4 3 37 :: six) 0) f := by
  constructor
  · intro h
    obtain ⟨t, ht, rfl⟩ := List.mem_map.1 h
    have : ∀ t ∈ tr 2 4 3 37 :: six, ∃ q ∈ (mesh 3 [] 0).tfaces, fkey ((mesh 3 [] 0).tface q) = t.key ∧
      ((mesh 3 [] 0).tadj q.1 q.2 = 0 ∨ (mesh 3 [] 0).tref q.1 ≠ (mesh 3 [] 0).tref ((mesh 3 [] 0).tadj q.1 q.2 / 4)) := by
      decide +kernel
    exact .inl (this t ht)
  · rintro (⟨q, hq, rfl, -⟩ | ⟨q, hq, -⟩)
    · have : ∀ q ∈ (mesh 0 [] 0).tfaces, fkey ((mesh 0 [] 0).tface q) ∈ (tr 2 4 3 37 :: six).map Tri.key := by decide +kernel
      exact this q hq
    · rw [pfaces_nil rfl] at hq; exact absurd hq List.not_mem_nil

example := C79_refs (wf0 3 (tr 2 4 3 37 :: six)) (O := opt) rfl rfl (by decide +kernel) bd_seven (List.cons_ne_nil _ _)
example := C79_open (wf0 1 (tr 3 4 2 37 :: six)) (O := { opt with opnbdy := true }) rfl (by decide +kernel) (List.cons_ne_nil _ _)

example := C79_user (wf0 3 (tr 4 2 3 37 :: tr 2 4 3 38 :: six)) (O := opt) rfl rfl (t := tr 4 2 3 37)
  (.inl ⟨(1, 0), by decide +kernel, by decide +kernel, .inr (by decide +kernel)⟩) (by decide +kernel)

/-- The reference of the user comes back. -/
example : ((rebuild (analysis (mesh 3 (tr 4 2 3 37 :: tr 2 4 3 38 :: six) 0) opt) opt).tri.map fun t => (t.a, t.b, t.c, t.ref)) =
    [(1, 4, 3, 31), (1, 2, 4, 32), (1, 3, 2, 33), (2, 4, 3, 37), (5, 3, 4, 34), (5, 2, 3, 35), (5, 4, 2, 36)] := by
  decide +kernel

/-- A required triangle gives a required face (tag 20 = boundary and required). -/
example : (bdrySet (mesh 3 six 0) opt).2 1 1 = 20 := by decide +kernel

def opn : Opt := { opt with opnbdy := true }

theorem along_iff (t : Tri) (f : Nat × Nat × Nat) : Along t f ↔ (t.fit f).isSome = true := by
  cases h : t.fit f with
  | none => simp [fit_none h]
  | some u => simpa using ⟨u, fit_some h⟩

theorem bd_six (r : Int) (t : Tri) (ht : t.key = ↑[2, 3, 4]) (f : Multiset Nat) (h : Bd (mesh r (t :: six) 0) f) :
    f ∈ (t :: six).map Tri.key := by
  rcases h with ⟨q, hq, rfl, -⟩ | ⟨q, hq, -⟩
  · have : ∀ q ∈ (mesh 0 [] 0).tfaces, fkey ((mesh 0 [] 0).tface q) ∈ (tr 2 3 4 0 :: six).map Tri.key := by decide +kernel
    have h2 := this q hq
    rw [List.map_cons] at h2 ⊢
    rw [ht]
    exact h2
  · rw [pfaces_nil rfl] at hq; exact absurd hq List.not_mem_nil

/-- An internal triangle between tetrahedra of the same reference is found again. -/
example := C79_refs_open (wf0 1 (tr 3 4 2 37 :: six)) (O := opn) rfl rfl (by decide +kernel) (bd_six 1 _ (by decide +kernel))
  (by decide +kernel) (List.cons_ne_nil _ _)
  (by
    have : ∀ q ∈ (mesh 1 (tr 3 4 2 37 :: six) 0).tfaces, (mesh 1 (tr 3 4 2 37 :: six) 0).tadj q.1 q.2 ≠ 0 →
      ¬ (mesh 1 (tr 3 4 2 37 :: six) 0).tref ((mesh 1 (tr 3 4 2 37 :: six) 0).tadj q.1 q.2 / 4) <
        (mesh 1 (tr 3 4 2 37 :: six) 0).tref q.1 := by decide +kernel
    intro q hq h1 h2
    exact absurd h2 (this q hq h1))
  (by simp only [along_iff]; decide +kernel)

example : ((rebuild (bdrySet (mesh 1 (tr 3 4 2 37 :: six) 0) opn).1 opn).tri.map fun t => (t.a, t.b, t.c, t.ref)) =
    [(2, 3, 4, 37), (1, 4, 3, 31), (1, 2, 4, 32), (1, 3, 2, 33), (5, 3, 4, 34), (5, 2, 3, 35), (5, 4, 2, 36)] := by
  decide +kernel

/-- Two materials and all the triangles: the hypotheses of the internal mode. -/
example := C79_user_open (wf0 3 (tr 2 3 4 37 :: six)) (O := opn) rfl rfl rfl
  (by intro k; show (if k = 1 then (1 : Int) else if k = 2 then 3 else 0) ≠ 2; split_ifs <;> decide)
  (by unfold Back; decide +kernel) (t := tr 2 3 4 37) (by decide +kernel) (by decide +kernel)

/-- Finding: when the internal triangles are preserved, a triangle of the user between the references 1 and 2, given with the
orientation of the first one, is not in the final mesh although it is between two materials; with the reference 3 instead of 2 it is
there. -/
theorem C79_lost_observed :
    (↑[2, 3, 4] : Multiset Nat) ∉ (rebuild (analysis (mesh 2 (tr 2 3 4 37 :: six) 0) opn) opn).tri.map Tri.key ∧
    (↑[2, 3, 4] : Multiset Nat) ∈ (rebuild (analysis (mesh 3 (tr 2 3 4 37 :: six) 0) opn) opn).tri.map Tri.key ∧
    (↑[2, 3, 4] : Multiset Nat) ∈ (rebuild (analysis (mesh 2 (tr 2 3 4 37 :: six) 0) opt) opt).tri.map Tri.key := by
  decide +kernel

/-- Finding: without this option, in the same case the orientation bit is on the side of the smaller reference; and if the user gives the
triangle from another vertex, neither side has it, so the tags of the edges are not transferred from this triangle. -/
theorem C79_noside_observed :
    oriOf (analysis (mesh 2 (tr 2 3 4 37 :: six) 0) opt).xt (1, 0) = true ∧
    oriOf (analysis (mesh 2 (tr 3 4 2 37 :: six) 0) opt).xt (1, 0) = false ∧
    oriOf (analysis (mesh 2 (tr 3 4 2 37 :: six) 0) opt).xt (2, 0) = false ∧
    oriOf (analysis (mesh 3 (tr 3 4 2 37 :: six) 0) opt).xt (2, 0) = true := by
  decide +kernel

end Ex

end Mmg.Bdry
