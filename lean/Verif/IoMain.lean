/-
  C73: a mesh saved by `MMG3D_saveMesh` and loaded by `MMG3D_loadMesh`: theorems.
-/
import Verif.IoProps
import Mathlib.Tactic.IntervalCases

namespace Mmg.Io

variable {R : Type}

theorem bind_none {α β : Type} {o : Option α} {f : α → Option β} (h : ∀ x, f x = none) :
    o.bind f = none := by
  cases o with
  | none => rfl
  | some x => exact h x

theorem mem_sections {bin : Bool} {pr : R → R} {m : Mesh R} {s : Sec R}
    (h : s ∈ sections bin pr m) : ∃ b, (b, s) ∈ parts bin pr m := by
  obtain ⟨⟨b, s'⟩, hq, rfl⟩ := List.mem_map.1 h
  exact ⟨b, (List.mem_filter.1 hq).1⟩

theorem scan_ascii (pr : R → R) (m : Mesh R) (hv : Elts m) (old : Kw → Int) (ver : Int) :
    ∃ h', scanA (saveA pr m) (initHdr (saveA pr m) old ver) = some h' ∧
      Good kA (sections false pr m) { initHdr (saveA pr m) old ver with ver := 2 } h' := by
  obtain ⟨h', e, hg⟩ := scanA_spec kA (sections false pr m)
    { initHdr (saveA pr m) old ver with ver := 2 }
    (by
      intro s hs
      obtain ⟨b, hb⟩ := mem_sections hs
      exact classifyA pr m _ hb)
    (by
      intro s hs
      obtain ⟨b, hb⟩ := mem_sections hs
      exact (parts_ok false pr m hv _ hb).1)
    (distinct_sections (distinctA pr m)) (fun _ => rfl)
  refine ⟨h', ?_, hg⟩
  have hver : classify "MeshVersionFormatted" = .ver := by decide
  have hdim : classify "Dimension" = .dim := by decide
  have e0 : saveA pr m = .word "MeshVersionFormatted" :: .int 2 :: .word "Dimension" :: .int 3 ::
      ((sections false pr m).flatMap txt ++ [.word "End"]) := by
    simp [saveA]
  conv_lhs => rw [e0]
  rw [scanA_word, hver]
  simp only
  rw [scanA_word, hdim]
  simp only [if_true]
  rw [← e0]
  exact e

theorem scan_binary (m : Mesh R) (hv : Elts m) (old : Kw → Int) (h0 : ∀ k, old k = 0) :
    ∃ h', scanB (saveB m) ((saveB m).length + 1)
        (.int 3 :: .int 20 :: .int 3 :: binParts 20 (sections true id m)) 0
        (initHdr (saveB m) old 2) = some h' ∧
      Good kB (sections true id m) (initHdr (saveB m) old 2) h' := by
  set P : List (Tok R) := [.int 1, .int 2, .int 3, .int 20, .int 3] with hP
  have hwP : (width P : Int) * 4 = 20 := by rw [hP]; rfl
  have hfile : saveB m = P ++ binParts ((width P : Int) * 4) (sections true id m) := by
    rw [hwP, hP]; rfl
  have hlen : (sections true id m).length < (saveB m).length := by
    have h1 : (sections true id m).length ≤ (parts true id m).length := by
      unfold sections
      rw [List.length_map]
      exact List.length_filter_le ..
    have key2 : ∀ (l : List (Sec R)) (b : Int),
        (l.filter fun s => s.code.isSome).length < (binParts b l).length := by
      intro l
      induction l with
      | nil => intro b; simp [binParts]
      | cons s l ih =>
        intro b
        cases hc : s.code with
        | none =>
          rw [binParts, hc, List.filter_cons_of_neg (by simp [hc])]
          exact ih b
        | some k =>
          have := ih (b + (3 + s.w * s.n) * 4)
          rw [binParts, hc, List.filter_cons_of_pos (by simp [hc])]
          simp only [List.length_cons, List.length_append]
          omega
    have h2 := key2 (sections true id m) 20
    have h3 : (sections true id m).length ≤
        ((sections true id m).filter fun s => s.code.isSome).length + 5 := by
      have h4 : ∀ l : List (Sec R), l.length =
          (l.filter fun s => s.code.isSome).length + (l.filter fun s => !s.code.isSome).length := by
        intro l
        exact List.length_eq_length_filter_add (fun s : Sec R => s.code.isSome)
      have h5 : ((sections true id m).filter fun s => !s.code.isSome).length ≤ 5 := by
        have h6 : ((sections true id m).filter fun s => !s.code.isSome).length ≤
            (((parts true id m).map fun q => q.2).filter fun s => !s.code.isSome).length := by
          apply List.Sublist.length_le
          apply List.Sublist.filter
          unfold sections
          exact List.Sublist.map _ List.filter_sublist
        exact h6
      have := h4 (sections true id m)
      omega
    have h7 : (saveB m).length = 5 + (binParts 20 (sections true id m)).length := by
      simp [saveB]; omega
    omega
  obtain ⟨h', e, hg⟩ := scanB_spec (saveB m) (sections true id m) P (saveB m).length
    (initHdr (saveB m) old 2) hfile (by simp [hP, NoWord])
    (by
      intro s hs _
      obtain ⟨b, hb⟩ := mem_sections hs
      exact parts_ok true id m hv _ hb)
    (by
      intro s hs
      obtain ⟨b, hb⟩ := mem_sections hs
      have : ∀ c ∈ (parts true id m).map (fun q => q.2.code), c ≠ some 54 := by
        have : (parts true id m).map (fun q => q.2.code) =
          [some 4, some 13, some 15, none, some 8, some 12, none, some 9, some 60, some 20, some 59,
           some 61, some 6, some 17, none, some 7, some 18, none, some 5, some 14, some 16, none] := rfl
        rw [this]
        decide
      exact this _ (List.mem_map.2 ⟨_, hb, rfl⟩))
    (distinct_sections (distinctB id m))
    (by
      intro s _ k _
      simp only [initHdr]
      split
      all_goals first | exact h0 _ | rfl)
    hlen
  refine ⟨h', ?_, hg⟩
  rw [hwP] at e
  rw [scanB.eq_def]
  simp only
  rw [if_neg (by decide), if_pos (by decide)]
  simp only [if_true]
  exact e

/-- **A mesh saved in an ASCII file and loaded again** is the mesh with the used vertices numbered
in order, the same elements, required, corner and parallel entities, with printed coordinates and
absolute values of the references; whatever the numbers of vertices and tetrahedra of the mesh that
receives it. -/
theorem C73_ascii (pr fl : R → R) (zero : R) (neg : List (R × R × R) → Bool)
    (nz : R × R × R → R × R × R) (iso : Bool) (m : Mesh R) (hv : Valid m) (old : Kw → Int) (ver : Int)
    (h0 : ∀ k, k ≠ .vert → k ≠ .tet → old k = 0) :
    loadA fl zero neg nz iso old ver (saveA pr m) = some (stored false pr zero neg nz iso m) := by
  obtain ⟨h', e, hg⟩ := scan_ascii pr m hv.toElts old ver
  unfold loadA
  rw [e, Option.bind_some]
  refine readMesh_spec false pr fl zero neg nz iso m h' hv (foundA pr m hv.toElts _ h' rfl hg ?_)
  intro k h1 h2
  simp only [initHdr]
  split
  all_goals first | exact h0 _ (by assumption) (by assumption) | rfl | skip
  all_goals first | exact absurd rfl h1 | exact absurd rfl h2 | exact h0 _ h1 h2

/-- **A mesh saved in a binary file and loaded again**: the same with the exact coordinates and
without the parallel entities. -/
theorem C73_binary (fl : R → R) (zero : R) (neg : List (R × R × R) → Bool)
    (nz : R × R × R → R × R × R) (iso : Bool) (m : Mesh R) (hv : Valid m) (old : Kw → Int)
    (h0 : ∀ k, old k = 0) :
    loadB fl zero neg nz iso old (saveB m) = some (stored true id zero neg nz iso m) := by
  obtain ⟨h', e, hg⟩ := scan_binary m hv.toElts old h0
  have e0 : saveB m = .int 1 :: .int 2 :: .int 3 :: .int 20 :: .int 3 ::
      binParts 20 (sections true id m) := rfl
  have hl : loadB fl zero neg nz iso old (saveB m) =
      (scanB (saveB m) ((saveB m).length + 1)
        (.int 3 :: .int 20 :: .int 3 :: binParts 20 (sections true id m)) 0
        (initHdr (saveB m) old 2)).bind (readMesh fl zero neg nz iso) := rfl
  rw [hl, e, Option.bind_some]
  refine readMesh_spec true id fl zero neg nz iso m h' hv (foundB id m hv.toElts _ h' rfl hg ?_)
  intro k h1 h2
  simp only [initHdr]
  split
  all_goals first | exact h0 _ | rfl

/-- **Numbers**: the new numbers of the used vertices are 1, 2, ... in the order of the old ones, and the
loaded vertex `num m k` is the saved vertex `k`. -/
theorem C73_numbers (bin : Bool) (pr : R → R) (zero : R) (neg : List (R × R × R) → Bool)
    (nz : R × R × R → R × R × R) (iso : Bool) (m : Mesh R) :
    (∀ k p, 1 ≤ k → m.pts[k - 1]? = some p → p.ok = true →
      1 ≤ num m k ∧ (stored bin pr zero neg nz iso m).pts[num m k - 1]? =
        some (ptOut bin pr zero nz iso m (p, k))) ∧
    (∀ k k' p, 1 ≤ k → k < k' → m.pts[k' - 1]? = some p → p.ok = true → num m k < num m k') ∧
    (∀ i q, (stored bin pr zero neg nz iso m).pts[i]? = some q → ∃ k p, 1 ≤ k ∧
      m.pts[k - 1]? = some p ∧ p.ok = true ∧ num m k = i + 1 ∧
      q = ptOut bin pr zero nz iso m (p, k)) := by
  refine ⟨?_, ?_, ?_⟩
  · intro k p h1 hp ho
    obtain ⟨hg, h2⟩ := kept_get m k p h1 hp ho
    refine ⟨h2, ?_⟩
    simp only [stored, List.getElem?_map, hg, Option.map_some]
  · intro k k' p h1 hk hp ho
    have hle : num m k ≤ num m (k' - 1) := by
      unfold num
      apply List.Sublist.countP_le
      exact List.take_sublist_take_left (by omega)
    have hlt : num m k' = num m (k' - 1) + 1 := by
      unfold num
      obtain ⟨j, rfl⟩ : ∃ j, k' = j + 1 := ⟨k' - 1, by omega⟩
      simp only [Nat.add_sub_cancel] at hp ⊢
      rw [List.take_succ, hp]
      simp [ho]
    omega
  · intro i q hq
    simp only [stored, List.getElem?_map] at hq
    cases hk : (kept m)[i]? with
    | none => rw [hk] at hq; cases hq
    | some r =>
      obtain ⟨p, k⟩ := r
      obtain ⟨h1, h2, h3, h4⟩ := kept_spec m i p k hk
      rw [hk] at hq
      exact ⟨k, p, h1, h2, h3, h4, (Option.some.inj hq).symm⟩

/-- **A mesh without tetrahedron** can be saved but not loaded. -/
theorem C73_no_tetra (pr fl : R → R) (zero : R) (neg : List (R × R × R) → Bool)
    (nz : R × R × R → R × R × R) (iso : Bool) (m : Mesh R) (hv : Elts m)
    (hno : ∀ e ∈ m.tets, e.ok = false) (old : Kw → Int) (ver : Int)
    (h0 : ∀ k, k ≠ .vert → k ≠ .tet → old k = 0) :
    loadA fl zero neg nz iso old ver (saveA pr m) = none := by
  obtain ⟨h', e, hg⟩ := scan_ascii pr m hv old ver
  unfold loadA
  rw [e, Option.bind_some]
  have hf := foundA pr m hv _ h' rfl hg (by
    intro k h1 h2
    simp only [initHdr]
    split
    all_goals first | exact absurd rfl h1 | exact absurd rfl h2 | exact h0 _ h1 h2 | rfl)
  have h1 := hf.tet.1
  have : (m.tets.filter fun e => e.ok) = [] := by
    rw [List.filter_eq_nil_iff]
    intro e he
    simp [hno e he]
  rw [this] at h1
  unfold readMesh
  rw [if_pos (.inr h1)]

/-- **Old counts**: the number of triangles of the mesh that receives the file is not reset; a file
without triangles is then refused (the triangles are looked for at its beginning). -/
theorem C73_stale (pr fl : R → R) (zero : R) (neg : List (R × R × R) → Bool)
    (nz : R × R × R → R × R × R) (iso : Bool) (m : Mesh R) (hv : Elts m) (ht : m.tris = [])
    (old : Kw → Int) (ver : Int) (h0 : 0 < old .tria) :
    loadA fl zero neg nz iso old ver (saveA pr m) = none := by
  obtain ⟨h', e, hg⟩ := scan_ascii pr m hv old ver
  unfold loadA
  rw [e, Option.bind_some]
  have hno : ∀ s ∈ sections false pr m, kA s ≠ some .tria := by
    intro s hs hk
    obtain ⟨⟨b, s'⟩, hq, rfl⟩ := List.mem_map.1 hs
    obtain ⟨hq1, hq2⟩ := List.mem_filter.1 hq
    simp only at hq2 hk
    subst hq2
    have hpart : (parts false pr m)[12]? =
        some (opt ⟨"Triangles", some 6, m.tris.length, 4, m.tris.flatMap (row m)⟩) := rfl
    have hb : opt (R := R) ⟨"Triangles", some 6, m.tris.length, 4, m.tris.flatMap (row m)⟩ =
        (false, ⟨"Triangles", some 6, m.tris.length, 4, m.tris.flatMap (row m)⟩) := by
      rw [ht]; rfl
    rw [hb] at hpart
    have hkey := key_at (keysA pr m) hpart (k := .tria) rfl
    have hne : ((true, s') : Bool × Sec R) ≠
        (false, ⟨"Triangles", some 6, m.tris.length, 4, m.tris.flatMap (row m)⟩) := by simp
    rcases pairwise_or (distinctA pr m) hq1 (List.mem_of_getElem? hpart) hne with hr | hr
    · exact hr _ hk hkey
    · exact hr _ hkey hk
  obtain ⟨hc, hp⟩ := hg.2.2 .tria hno
  have hc' : h'.cnt .tria = old .tria := hc
  have hp' : h'.pos .tria = saveA pr m := hp
  have hr : readPart 3 h' .tria .reqTria .parTria = none := by
    unfold readPart
    rw [if_neg (by omega)]
    have : readElts 3 h' .tria = none := by
      unfold readElts
      obtain ⟨j, hj⟩ : ∃ j, (h'.cnt .tria).toNat = j + 1 := ⟨(h'.cnt .tria).toNat - 1, by omega⟩
      rw [hj, hp', readN.eq_def]
      have : readElt 3 (saveA pr m) = none := rfl
      simp only [this]
    rw [this]
    rfl
  unfold readMesh
  by_cases hz : h'.cnt .vert = 0 ∨ h'.cnt .tet = 0
  · rw [if_pos hz]
  · rw [if_neg hz]
    refine bind_none fun _ => bind_none fun _ => bind_none fun _ => bind_none fun _ => ?_
    rw [hr]
    rfl

end Mmg.Io
