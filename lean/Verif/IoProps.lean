/-
  C73: a mesh saved by `MMG3D_saveMesh` and loaded by `MMG3D_loadMesh`.
-/
import Verif.IoRead

namespace Mmg.Io

variable {R : Type}

/-! ### The parts of a file -/

/-- Key of a part of an ASCII file. -/
def kA (s : Sec R) : Option Kw :=
  match classify s.name with
  | .sec k => some k
  | _ => none

/-- Key of a part of a binary file. -/
def kB (s : Sec R) : Option Kw := s.code.bind kwOfCode

theorem pairwise_or {α : Type} {r : α → α → Prop} {l : List α} (h : l.Pairwise r) {a b : α}
    (ha : a ∈ l) (hb : b ∈ l) (hne : a ≠ b) : r a b ∨ r b a := by
  induction h with
  | nil => cases ha
  | cons h1 _ ih =>
    rcases List.mem_cons.1 ha with rfl | ha' <;> rcases List.mem_cons.1 hb with rfl | hb'
    · exact absurd rfl hne
    · exact .inl (h1 _ hb')
    · exact .inr (h1 _ ha')
    · exact ih ha' hb'

theorem find_part (κ : Sec R → Option Kw) (all : List (Bool × Sec R))
    (hd : all.Pairwise fun a b => ∀ k, κ a.2 = some k → κ b.2 ≠ some k) (h h' : Hdr R)
    (hg : Good κ ((all.filter fun q => q.1).map fun q => q.2) h h') (b : Bool) (s : Sec R) (k : Kw)
    (hm : (b, s) ∈ all) (hk : κ s = some k) :
    (b = true → h'.cnt k = s.n ∧ ∃ t, h'.pos k = s.data ++ t) ∧ (b = false → h'.cnt k = h.cnt k) := by
  obtain ⟨-, h2, h3⟩ := hg
  constructor
  · rintro rfl
    exact h2 s (List.mem_map.2 ⟨(true, s), List.mem_filter.2 ⟨hm, rfl⟩, rfl⟩) k hk
  · rintro rfl
    refine (h3 k ?_).1
    intro a ha hka
    obtain ⟨⟨b, a'⟩, hb, rfl⟩ := List.mem_map.1 ha
    obtain ⟨hb1, hb2⟩ := List.mem_filter.1 hb
    simp only at hb2 hka
    subst hb2
    have hne : ((true, a') : Bool × Sec R) ≠ (false, s) := by simp
    rcases pairwise_or hd hb1 hm hne with hr | hr
    · exact hr k hka hk
    · exact hr k hk hka

theorem keysA (pr : R → R) (m : Mesh R) : (parts false pr m).map (fun q => kA q.2) =
    [some .vert, some .corn, some .reqV, some .parV, some .tet, some .reqTet, some .parTet,
     some .prism, some .norm, some .normAt, none, none, some .tria, some .reqTria, some .parTria,
     some .quad, some .reqQuad, some .parQuad, some .edge, some .ridge, some .reqEdge,
     some .parEdge] := by
  have h : (parts false pr m).map (fun q => kA q.2)
      = ((parts false pr m).map fun q => q.2.name).map fun w =>
        match classify w with | .sec k => some k | _ => none := by
    rw [List.map_map]
    rfl
  have h2 : ((parts false pr m).map fun q => q.2.name) =
    ["Vertices", "Corners", "RequiredVertices", "ParallelVertices", "Tetrahedra",
     "RequiredTetrahedra", "ParallelTetrahedra", "Prisms", "Normals", "NormalAtVertices",
     "Tangents", "TangentAtVertices", "Triangles", "RequiredTriangles", "ParallelTriangles",
     "Quadrilaterals", "RequiredQuadrilaterals", "ParallelQuadrilaterals", "Edges", "Ridges",
     "RequiredEdges", "ParallelEdges"] := rfl
  rw [h, h2]
  decide

theorem classifyA (pr : R → R) (m : Mesh R) : ∀ q ∈ parts false pr m,
    classify q.2.name = match kA q.2 with | some k => .sec k | none => .skip := by
  have h2 : ((parts false pr m).map fun q => q.2.name) =
    ["Vertices", "Corners", "RequiredVertices", "ParallelVertices", "Tetrahedra",
     "RequiredTetrahedra", "ParallelTetrahedra", "Prisms", "Normals", "NormalAtVertices",
     "Tangents", "TangentAtVertices", "Triangles", "RequiredTriangles", "ParallelTriangles",
     "Quadrilaterals", "RequiredQuadrilaterals", "ParallelQuadrilaterals", "Edges", "Ridges",
     "RequiredEdges", "ParallelEdges"] := rfl
  have h3 : ∀ w ∈ ((parts false pr m).map fun q => q.2.name),
      classify w = match (match classify w with | .sec k => some k | _ => none : Option Kw) with
        | some k => .sec k | none => .skip := by
    rw [h2]
    decide
  intro q hq
  exact h3 q.2.name (List.mem_map.2 ⟨q, hq, rfl⟩)

theorem keysB (pr : R → R) (m : Mesh R) : (parts true pr m).map (fun q => kB q.2) =
    [some .vert, some .corn, some .reqV, none, some .tet, some .reqTet, none,
     some .prism, some .norm, some .normAt, none, none, some .tria, some .reqTria, none,
     some .quad, some .reqQuad, none, some .edge, some .ridge, some .reqEdge, none] := by
  rfl

theorem distinct_keys {κ : Sec R → Option Kw} {all : List (Bool × Sec R)} {ks : List (Option Kw)}
    (h : all.map (fun q => κ q.2) = ks) (hk : ks.Pairwise fun a b => a = none ∨ a ≠ b) :
    all.Pairwise fun a b => ∀ k, κ a.2 = some k → κ b.2 ≠ some k := by
  rw [← h, List.pairwise_map] at hk
  refine hk.imp ?_
  intro a b hab k h1 h2
  rcases hab with h0 | h0
  · rw [h1] at h0; cases h0
  · exact h0 (h1.trans h2.symm)

theorem distinctA (pr : R → R) (m : Mesh R) :
    (parts false pr m).Pairwise fun a b => ∀ k, kA a.2 = some k → kA b.2 ≠ some k :=
  distinct_keys (keysA pr m) (by decide)

theorem distinctB (pr : R → R) (m : Mesh R) :
    (parts true pr m).Pairwise fun a b => ∀ k, kB a.2 = some k → kB b.2 ≠ some k :=
  distinct_keys (keysB pr m) (by decide)

theorem distinct_sections {κ : Sec R → Option Kw} {bin : Bool} {pr : R → R} {m : Mesh R}
    (h : (parts bin pr m).Pairwise fun a b => ∀ k, κ a.2 = some k → κ b.2 ≠ some k) :
    Distinct κ (sections bin pr m) := by
  unfold Distinct sections
  rw [List.pairwise_map]
  exact h.sublist List.filter_sublist

/-! ### Data of the parts -/

/-- No word in the data, and the announced number of words. -/
def PartOK (s : Sec R) : Prop := NoWord s.data ∧ width s.data = s.w * s.n

theorem partOK_flatMap {α : Type} (enc : α → List (Tok R)) (l : List α) (w : Nat)
    (h : ∀ x ∈ l, NoWord (enc x) ∧ width (enc x) = w) :
    NoWord (l.flatMap enc) ∧ width (l.flatMap enc) = w * l.length := by
  induction l with
  | nil => exact ⟨by simp [NoWord], rfl⟩
  | cons x l ih =>
    obtain ⟨i1, i2⟩ := ih fun y hy => h y (List.mem_cons_of_mem _ hy)
    obtain ⟨j1, j2⟩ := h x (List.mem_cons_self ..)
    rw [List.flatMap_cons]
    refine ⟨noWord_append.2 ⟨j1, i1⟩, ?_⟩
    rw [width_append, i2, j2, List.length_cons]
    ring

theorem reals_ok (pr : R → R) (c : R × R × R) :
    NoWord (reals pr c) ∧ width (reals pr c) = 6 := by
  constructor
  · intro t ht w
    simp only [reals, List.mem_cons, List.not_mem_nil, or_false] at ht
    rcases ht with rfl | rfl | rfl <;> simp
  · simp [reals, wid]

theorem row_ok (m : Mesh R) (e : Elt) (a : Nat) (h : e.v.length = a) :
    NoWord (row m e) ∧ width (row m e) = a + 1 := by
  constructor
  · intro t ht w
    simp only [row, List.mem_append, List.mem_map, List.mem_singleton] at ht
    rcases ht with ⟨k, _, rfl⟩ | rfl <;> simp
  · unfold row
    rw [width_append, width_cons, width_nil]
    have : width (e.v.map fun k => (Tok.int (tmp m k) : Tok R)) = e.v.length := by
      unfold width
      rw [List.map_map]
      clear h
      induction e.v with
      | nil => rfl
      | cons x l ih => simp only [List.map_cons, List.sum_cons, List.length_cons, ih, Function.comp, wid]; omega
    rw [this, h]
    simp [wid]

theorem pairs_ok (f : Nat → Nat) (l : List Nat) (j : Nat) :
    NoWord (pairs f (ints l : List (Tok R)) j) ∧
      width (pairs f (ints l : List (Tok R)) j) = 2 * l.length := by
  induction l generalizing j with
  | nil => exact ⟨by simp [NoWord, ints, pairs], rfl⟩
  | cons a l ih =>
    have : (ints (a :: l) : List (Tok R)) = .int a :: ints l := rfl
    rw [this, pairs]
    obtain ⟨i1, i2⟩ := ih (j + 1)
    constructor
    · simp only [noWord_cons]
      exact ⟨by simp, by simp, i1⟩
    · simp only [width_cons, wid, i2, List.length_cons]
      omega

theorem ints_ok {α : Type} (f : α → Bool) (l : List α) (n : Nat) :
    NoWord (ints (markIdx f l n) : List (Tok R)) ∧
      width (ints (markIdx f l n) : List (Tok R)) = 1 * l.countP f := by
  refine ⟨noWord_ints _, ?_⟩
  rw [width_ints, markIdx_length, Nat.one_mul]

theorem countP_ok_and {α : Type} (p f : α → Bool) (l : List α) :
    l.countP (fun x => p x && f x) = (l.filter p).countP f := by
  rw [List.countP_filter]
  congr 1
  funext x
  exact Bool.and_comm ..

theorem filter_hasN (l : List (Pt R)) : l.filter hasN = (l.filter fun p => p.ok).filter hasN := by
  rw [List.filter_filter]
  congr 1
  funext p
  unfold hasN
  cases p.ok <;> simp

theorem filter_hasT (l : List (Pt R)) : l.filter hasT = (l.filter fun p => p.ok).filter hasT := by
  rw [List.filter_filter]
  congr 1
  funext p
  unfold hasT
  cases p.ok <;> simp

theorem countP_hasN (l : List (Pt R)) : l.countP hasN = (l.filter fun p => p.ok).countP hasN := by
  rw [List.countP_eq_length_filter, List.countP_eq_length_filter, ← filter_hasN]

theorem countP_hasT (l : List (Pt R)) : l.countP hasT = (l.filter fun p => p.ok).countP hasT := by
  rw [List.countP_eq_length_filter, List.countP_eq_length_filter, ← filter_hasT]

theorem parts_ok (bin : Bool) (pr : R → R) (m : Mesh R) (hv : Elts m) :
    ∀ q ∈ parts bin pr m, PartOK q.2 := by
  have hq : (m.quads.filter fun e => e.ok) = m.quads :=
    List.filter_eq_self.2 fun e he => (hv.quads e he).1
  have hT : ∀ e ∈ m.tets.filter (fun e => e.ok), e.v.length = 4 := fun e he =>
    (hv.tets e (List.mem_filter.1 he).1 (List.mem_filter.1 he).2).1
  have hP : ∀ e ∈ m.prisms.filter (fun e => e.ok), e.v.length = 6 := fun e he =>
    (hv.prisms e (List.mem_filter.1 he).1 (List.mem_filter.1 he).2).1
  unfold parts PartOK opt
  simp only [List.forall_mem_cons, List.not_mem_nil, false_imp_iff, implies_true, and_true,
    ptIdx_eq, eltIdx_eq, rawIdx_eq, countP_ok_and, List.countP_eq_length_filter (p := fun p : Pt R => p.ok),
    List.countP_eq_length_filter (p := fun e : Elt => e.ok), hq, countP_hasN (flags m), countP_hasT (flags m)]
  refine ⟨?_, ints_ok .., ints_ok .., ints_ok .., ?_, ints_ok .., ints_ok .., ?_, ?_, ?_, ?_, ?_, ?_,
    ints_ok .., ints_ok .., ?_, ints_ok .., ints_ok .., ?_, ints_ok .., ints_ok .., ints_ok ..⟩
  · refine partOK_flatMap _ _ _ fun p _ => ?_
    obtain ⟨h1, h2⟩ := reals_ok pr p.c
    exact ⟨noWord_append.2 ⟨h1, by simp [NoWord]⟩, by rw [width_append, h2]; rfl⟩
  · exact partOK_flatMap _ _ _ fun e he => row_ok m e 4 (hT e he)
  · exact partOK_flatMap _ _ _ fun e he => row_ok m e 6 (hP e he)
  · rw [← countP_hasN, List.countP_eq_length_filter]
    exact partOK_flatMap _ _ _ fun p _ => reals_ok pr p.n1
  · have h := pairs_ok (R := R) id (markIdx hasN ((flags m).filter fun p => p.ok) 0) 0
    rw [markIdx_length] at h
    exact h
  · rw [← countP_hasT, List.countP_eq_length_filter]
    exact partOK_flatMap _ _ _ fun p _ => reals_ok pr p.n
  · have h := pairs_ok (R := R)
      (if bin = true then fun _ => ((flags m).filter fun p => p.ok).countP hasN else id)
      (markIdx hasT ((flags m).filter fun p => p.ok) 0) 0
    rw [markIdx_length] at h
    exact h
  · exact partOK_flatMap _ _ _ fun e he => row_ok m e 3 (hv.tris e he).1
  · exact partOK_flatMap _ _ _ fun e he => row_ok m e 4 (hv.quads e he).2.1
  · exact partOK_flatMap _ _ _ fun e he => row_ok m e 2 (hv.edges e he).1

/-! ### What the first pass finds -/

theorem ptIdx_flags (m : Mesh R) (f : Pt R → Bool) :
    ptIdx f (flags m) = ints (markIdx (fun q => f (withFlag m q)) (kept m) 0) := by
  rw [ptIdx_eq, flags_filter, markIdx_map]

theorem hasN_normal (m : Mesh R) (hx : m.xp = true) (q : Pt R × Nat) (hq : q ∈ kept m) :
    hasN (withFlag m q) = normal m q := by
  have ho : q.1.ok = true := (List.mem_filter.1 hq).2
  unfold hasN normal
  have h1 : (withFlag m q).ok = true := ho
  rw [h1, hx]
  rfl

theorem markIdx_congr {α : Type} (f g : α → Bool) (l : List α) (n : Nat)
    (h : ∀ x ∈ l, f x = g x) : markIdx f l n = markIdx g l n := by
  induction l generalizing n with
  | nil => rfl
  | cons x l ih =>
    rw [markIdx, markIdx, h x (List.mem_cons_self ..), ih _ fun y hy => h y (List.mem_cons_of_mem _ hy)]

section Find

variable {κ : Sec R → Option Kw} {bin : Bool} {pr : R → R} {m : Mesh R} {h h' : Hdr R}
  {L : List (Option Kw)}

theorem key_at (hL : (parts bin pr m).map (fun q => κ q.2) = L) {i : Nat} {q : Bool × Sec R} {k : Kw}
    (hi : (parts bin pr m)[i]? = some q) (hk : L[i]? = some (some k)) : κ q.2 = some k := by
  rw [← hL, List.getElem?_map, hi] at hk
  exact Option.some.inj hk

theorem optAt (hL : (parts bin pr m).map (fun q => κ q.2) = L)
    (hd : (parts bin pr m).Pairwise fun a b => ∀ k, κ a.2 = some k → κ b.2 ≠ some k)
    (hg : Good κ (sections bin pr m) h h') (i : Nat) (s : Sec R) (k : Kw) (h0 : h.cnt k = 0)
    (hi : (parts bin pr m)[i]? = some (opt s)) (hk : L[i]? = some (some k)) :
    SecAt h' k s.n s.data := by
  obtain ⟨f1, f2⟩ := find_part κ _ hd h h' hg _ s k (List.mem_of_getElem? hi) (key_at hL hi hk)
  by_cases hn : s.n = 0
  · refine ⟨?_, fun hc => absurd hn hc⟩
    rw [f2 (by simp [hn]), h0, hn]
    rfl
  · obtain ⟨g1, g2⟩ := f1 (by simp [hn])
    exact ⟨g1, fun _ => g2⟩

theorem allAt (hL : (parts bin pr m).map (fun q => κ q.2) = L)
    (hd : (parts bin pr m).Pairwise fun a b => ∀ k, κ a.2 = some k → κ b.2 ≠ some k)
    (hg : Good κ (sections bin pr m) h h') (i : Nat) (s : Sec R) (k : Kw)
    (hi : (parts bin pr m)[i]? = some (true, s)) (hk : L[i]? = some (some k)) :
    SecAt h' k s.n s.data := by
  obtain ⟨f1, -⟩ := find_part κ _ hd h h' hg _ s k (List.mem_of_getElem? hi) (key_at hL hi hk)
  obtain ⟨g1, g2⟩ := f1 rfl
  exact ⟨g1, fun _ => g2⟩

theorem noAt (hL : (parts bin pr m).map (fun q => κ q.2) = L)
    (hd : (parts bin pr m).Pairwise fun a b => ∀ k, κ a.2 = some k → κ b.2 ≠ some k)
    (hg : Good κ (sections bin pr m) h h') (i : Nat) (s : Sec R) (k : Kw)
    (hi : (parts bin pr m)[i]? = some (false, s)) (hk : L[i]? = some (some k)) :
    h'.cnt k = h.cnt k := by
  obtain ⟨-, f2⟩ := find_part κ _ hd h h' hg _ s k (List.mem_of_getElem? hi) (key_at hL hi hk)
  exact f2 rfl

/-- No part has this key. -/
theorem nokey (hL : (parts bin pr m).map (fun q => κ q.2) = L) (hg : Good κ (sections bin pr m) h h')
    (k : Kw) (hk : some k ∉ L) : h'.cnt k = h.cnt k := by
  refine (hg.2.2 k ?_).1
  intro s hs hc
  obtain ⟨q, hq, rfl⟩ := List.mem_map.1 hs
  apply hk
  rw [← hL]
  exact List.mem_map.2 ⟨q, (List.mem_filter.1 hq).1, hc⟩

end Find

theorem secAt_zero {α : Type} {h : Hdr R} {k : Kw} (hs : h.cnt k = 0) (l : List α)
    (f : α → Bool) :
    SecAt h k (l.countP fun e => !true && f e) (ints (markIdx (fun e => !true && f e) l 0)) := by
  have : (l.countP fun e => !true && f e) = 0 := by
    rw [List.countP_eq_zero]
    intro a _
    simp
  rw [this]
  exact ⟨hs, fun hc => absurd rfl hc⟩

section Normals

variable {κ : Sec R → Option Kw} {bin : Bool} {pr : R → R} {m : Mesh R} {h h' : Hdr R}
  {L : List (Option Kw)}

theorem normal_none (hx : m.xp = false) : (kept m).countP (normal m) = 0 := by
  rw [List.countP_eq_zero]
  intro q _
  simp [normal, hx]

theorem countP_normal (hx : m.xp = true) : (flags m).countP hasN = (kept m).countP (normal m) := by
  rw [countP_hasN, flags_filter, List.countP_map]
  apply List.countP_congr
  intro q hq
  rw [← hasN_normal m hx q hq]
  rfl

theorem norm_found (hL : (parts bin pr m).map (fun q => κ q.2) = L)
    (hd : (parts bin pr m).Pairwise fun a b => ∀ k, κ a.2 = some k → κ b.2 ≠ some k)
    (hg : Good κ (sections bin pr m) h h') (h0 : h.cnt .norm = 0)
    (hi : (parts bin pr m)[8]? = some (m.xp, ⟨"Normals", some 60, (flags m).countP hasN, 6,
      ((flags m).filter hasN).flatMap fun p => reals pr p.n1⟩))
    (hk : L[8]? = some (some .norm)) :
    SecAt h' .norm ((kept m).countP (normal m))
      (((kept m).filter (normal m)).flatMap fun q => reals pr q.1.n1) := by
  cases hx : m.xp with
  | false =>
    rw [hx] at hi
    rw [normal_none hx]
    exact ⟨(noAt hL hd hg 8 _ .norm hi hk).trans h0, fun hc => absurd rfl hc⟩
  | true =>
    rw [hx] at hi
    have hs : SecAt h' .norm ((flags m).countP hasN)
      (((flags m).filter hasN).flatMap fun p => reals pr p.n1) := allAt hL hd hg 8 _ .norm hi hk
    rw [countP_normal hx, filter_hasN, flags_filter, List.filter_map, List.flatMap_map] at hs
    have : (kept m).filter (hasN ∘ withFlag m) = (kept m).filter (normal m) :=
      List.filter_congr fun q hq => hasN_normal m hx q hq
    rw [this] at hs
    exact hs

theorem normAt_found (hL : (parts bin pr m).map (fun q => κ q.2) = L)
    (hd : (parts bin pr m).Pairwise fun a b => ∀ k, κ a.2 = some k → κ b.2 ≠ some k)
    (hg : Good κ (sections bin pr m) h h') (h0 : h.cnt .normAt = 0)
    (hi : (parts bin pr m)[9]? = some (m.xp, ⟨"NormalAtVertices", some 20, (flags m).countP hasN, 2,
      pairs id (ptIdx hasN (flags m)) 0⟩))
    (hk : L[9]? = some (some .normAt)) :
    SecAt h' .normAt ((kept m).countP (normal m))
      (pairs id (ints (markIdx (normal m) (kept m) 0)) 0) := by
  cases hx : m.xp with
  | false =>
    rw [hx] at hi
    rw [normal_none hx]
    exact ⟨(noAt hL hd hg 9 _ .normAt hi hk).trans h0, fun hc => absurd rfl hc⟩
  | true =>
    rw [hx] at hi
    have hs : SecAt h' .normAt ((flags m).countP hasN)
      (pairs id (ptIdx hasN (flags m)) 0) := allAt hL hd hg 9 _ .normAt hi hk
    rw [countP_normal hx, ptIdx_flags, markIdx_congr _ _ _ _ fun q hq => hasN_normal m hx q hq] at hs
    exact hs

end Normals

theorem foundA (pr : R → R) (m : Mesh R) (hv : Elts m) (h h' : Hdr R) (h2 : h.ver = 2)
    (hg : Good kA (sections false pr m) h h')
    (h0 : ∀ k, k ≠ .vert → k ≠ .tet → h.cnt k = 0) : Found false pr m h' := by
  have hL := keysA pr m
  have hd := distinctA pr m
  have hq : (m.quads.filter fun e => e.ok) = m.quads :=
    List.filter_eq_self.2 fun e he => (hv.quads e he).1
  exact {
    ver := hg.1.trans h2
    vert := by
      have hs : SecAt h' .vert ((flags m).countP fun p => p.ok)
        (((flags m).filter fun p => p.ok).flatMap fun p => reals pr p.c ++ [.int p.ref.natAbs]) :=
        allAt hL hd hg 0 _ .vert rfl rfl
      rw [List.countP_eq_length_filter, flags_filter, List.length_map, List.flatMap_map] at hs
      exact hs
    corn := by
      have hs : SecAt h' .corn ((flags m).countP fun p => p.ok && p.crn) (ptIdx (fun p => p.crn) (flags m)) := optAt hL hd hg 1 _ .corn (h0 _ (by decide) (by decide)) rfl rfl
      rw [ptIdx_flags, countP_flags m (fun p => p.crn)] at hs
      exact hs
    reqV := by
      have hs : SecAt h' .reqV ((flags m).countP fun p => p.ok && p.req) (ptIdx (fun p => p.req) (flags m)) := optAt hL hd hg 2 _ .reqV (h0 _ (by decide) (by decide)) rfl rfl
      rw [ptIdx_flags, countP_flags m (fun p => p.req)] at hs
      exact hs
    parV := by
      have hs : SecAt h' .parV ((flags m).countP fun p => p.ok && p.par) (ptIdx (fun p => p.par) (flags m)) := optAt hL hd hg 3 _ .parV (h0 _ (by decide) (by decide)) rfl rfl
      rw [ptIdx_flags, countP_flags m (fun p => p.par)] at hs
      exact hs
    tet := by
      have hs : SecAt h' .tet (m.tets.countP fun e => e.ok)
        ((m.tets.filter fun e => e.ok).flatMap (row m)) := allAt hL hd hg 4 _ .tet rfl rfl
      rw [List.countP_eq_length_filter] at hs
      exact hs
    reqTet := by
      have hs : SecAt h' .reqTet (m.tets.countP fun e => e.ok && e.req) (eltIdx (fun e => e.req) m.tets 0) := optAt hL hd hg 5 _ .reqTet (h0 _ (by decide) (by decide)) rfl rfl
      rw [eltIdx_eq, countP_ok_and] at hs
      exact hs
    parTet := by
      have hs : SecAt h' .parTet (m.tets.countP fun e => e.ok && e.par) (eltIdx (fun e => e.par) m.tets 0) := optAt hL hd hg 6 _ .parTet (h0 _ (by decide) (by decide)) rfl rfl
      rw [eltIdx_eq, countP_ok_and] at hs
      exact hs
    prism := by
      have hs : SecAt h' .prism (m.prisms.countP fun e => e.ok) ((m.prisms.filter fun e => e.ok).flatMap (row m)) := optAt hL hd hg 7 _ .prism (h0 _ (by decide) (by decide)) rfl rfl
      rw [List.countP_eq_length_filter] at hs
      exact hs
    norm := norm_found hL hd hg (h0 _ (by decide) (by decide)) rfl rfl
    normAt := normAt_found hL hd hg (h0 _ (by decide) (by decide)) rfl rfl
    tria := by
      have hs : SecAt h' .tria m.tris.length (m.tris.flatMap (row m)) := optAt hL hd hg 12 _ .tria (h0 _ (by decide) (by decide)) rfl rfl
      exact hs
    reqTria := by
      have hs : SecAt h' .reqTria (m.tris.countP fun e => e.req) (rawIdx (fun e => e.req) m.tris 0) := optAt hL hd hg 13 _ .reqTria (h0 _ (by decide) (by decide)) rfl rfl
      rw [rawIdx_eq] at hs
      exact hs
    parTria := by
      have hs : SecAt h' .parTria (m.tris.countP fun e => e.par) (rawIdx (fun e => e.par) m.tris 0) := optAt hL hd hg 14 _ .parTria (h0 _ (by decide) (by decide)) rfl rfl
      rw [rawIdx_eq] at hs
      exact hs
    quad := by
      have hs : SecAt h' .quad (m.quads.countP fun e => e.ok) ((m.quads.filter fun e => e.ok).flatMap (row m)) := optAt hL hd hg 15 _ .quad (h0 _ (by decide) (by decide)) rfl rfl
      rw [List.countP_eq_length_filter, hq] at hs
      exact hs
    reqQuad := by
      have hs : SecAt h' .reqQuad (m.quads.countP fun e => e.ok && e.req) (rawIdx (fun e => e.req) m.quads 0) := optAt hL hd hg 16 _ .reqQuad (h0 _ (by decide) (by decide)) rfl rfl
      rw [rawIdx_eq, countP_ok_and, hq] at hs
      exact hs
    parQuad := by
      have hs : SecAt h' .parQuad (m.quads.countP fun e => e.ok && e.par) (rawIdx (fun e => e.par) m.quads 0) := optAt hL hd hg 17 _ .parQuad (h0 _ (by decide) (by decide)) rfl rfl
      rw [rawIdx_eq, countP_ok_and, hq] at hs
      exact hs
    edge := by
      have hs : SecAt h' .edge m.edges.length (m.edges.flatMap (row m)) := optAt hL hd hg 18 _ .edge (h0 _ (by decide) (by decide)) rfl rfl
      exact hs
    ridge := by
      have hs : SecAt h' .ridge (m.edges.countP fun e => e.geo) (rawIdx (fun e => e.geo) m.edges 0) := optAt hL hd hg 19 _ .ridge (h0 _ (by decide) (by decide)) rfl rfl
      rw [rawIdx_eq] at hs
      exact hs
    reqEdge := by
      have hs : SecAt h' .reqEdge (m.edges.countP fun e => e.req) (rawIdx (fun e => e.req) m.edges 0) := optAt hL hd hg 20 _ .reqEdge (h0 _ (by decide) (by decide)) rfl rfl
      rw [rawIdx_eq] at hs
      exact hs
    parEdge := by
      have hs : SecAt h' .parEdge (m.edges.countP fun e => e.par) (rawIdx (fun e => e.par) m.edges 0) := optAt hL hd hg 21 _ .parEdge (h0 _ (by decide) (by decide)) rfl rfl
      rw [rawIdx_eq] at hs
      exact hs }

theorem foundB (pr : R → R) (m : Mesh R) (hv : Elts m) (h h' : Hdr R) (h2 : h.ver = 2)
    (hg : Good kB (sections true pr m) h h')
    (h0 : ∀ k, k ≠ .vert → k ≠ .tet → h.cnt k = 0) : Found true pr m h' := by
  have hL := keysB pr m
  have hd := distinctB pr m
  have hq : (m.quads.filter fun e => e.ok) = m.quads :=
    List.filter_eq_self.2 fun e he => (hv.quads e he).1
  exact {
    ver := hg.1.trans h2
    vert := by
      have hs : SecAt h' .vert ((flags m).countP fun p => p.ok)
        (((flags m).filter fun p => p.ok).flatMap fun p => reals pr p.c ++ [.int p.ref.natAbs]) :=
        allAt hL hd hg 0 _ .vert rfl rfl
      rw [List.countP_eq_length_filter, flags_filter, List.length_map, List.flatMap_map] at hs
      exact hs
    corn := by
      have hs : SecAt h' .corn ((flags m).countP fun p => p.ok && p.crn) (ptIdx (fun p => p.crn) (flags m)) := optAt hL hd hg 1 _ .corn (h0 _ (by decide) (by decide)) rfl rfl
      rw [ptIdx_flags, countP_flags m (fun p => p.crn)] at hs
      exact hs
    reqV := by
      have hs : SecAt h' .reqV ((flags m).countP fun p => p.ok && p.req) (ptIdx (fun p => p.req) (flags m)) := optAt hL hd hg 2 _ .reqV (h0 _ (by decide) (by decide)) rfl rfl
      rw [ptIdx_flags, countP_flags m (fun p => p.req)] at hs
      exact hs
    parV := by
      have hs : h'.cnt .parV = h.cnt .parV := nokey hL hg .parV (by decide)
      rw [h0 _ (by decide) (by decide)] at hs
      exact secAt_zero hs _ _
    tet := by
      have hs : SecAt h' .tet (m.tets.countP fun e => e.ok)
        ((m.tets.filter fun e => e.ok).flatMap (row m)) := allAt hL hd hg 4 _ .tet rfl rfl
      rw [List.countP_eq_length_filter] at hs
      exact hs
    reqTet := by
      have hs : SecAt h' .reqTet (m.tets.countP fun e => e.ok && e.req) (eltIdx (fun e => e.req) m.tets 0) := optAt hL hd hg 5 _ .reqTet (h0 _ (by decide) (by decide)) rfl rfl
      rw [eltIdx_eq, countP_ok_and] at hs
      exact hs
    parTet := by
      have hs : h'.cnt .parTet = h.cnt .parTet := nokey hL hg .parTet (by decide)
      rw [h0 _ (by decide) (by decide)] at hs
      exact secAt_zero hs _ _
    prism := by
      have hs : SecAt h' .prism (m.prisms.countP fun e => e.ok) ((m.prisms.filter fun e => e.ok).flatMap (row m)) := optAt hL hd hg 7 _ .prism (h0 _ (by decide) (by decide)) rfl rfl
      rw [List.countP_eq_length_filter] at hs
      exact hs
    norm := norm_found hL hd hg (h0 _ (by decide) (by decide)) rfl rfl
    normAt := normAt_found hL hd hg (h0 _ (by decide) (by decide)) rfl rfl
    tria := by
      have hs : SecAt h' .tria m.tris.length (m.tris.flatMap (row m)) := optAt hL hd hg 12 _ .tria (h0 _ (by decide) (by decide)) rfl rfl
      exact hs
    reqTria := by
      have hs : SecAt h' .reqTria (m.tris.countP fun e => e.req) (rawIdx (fun e => e.req) m.tris 0) := optAt hL hd hg 13 _ .reqTria (h0 _ (by decide) (by decide)) rfl rfl
      rw [rawIdx_eq] at hs
      exact hs
    parTria := by
      have hs : h'.cnt .parTria = h.cnt .parTria := nokey hL hg .parTria (by decide)
      rw [h0 _ (by decide) (by decide)] at hs
      exact secAt_zero hs _ _
    quad := by
      have hs : SecAt h' .quad (m.quads.countP fun e => e.ok) ((m.quads.filter fun e => e.ok).flatMap (row m)) := optAt hL hd hg 15 _ .quad (h0 _ (by decide) (by decide)) rfl rfl
      rw [List.countP_eq_length_filter, hq] at hs
      exact hs
    reqQuad := by
      have hs : SecAt h' .reqQuad (m.quads.countP fun e => e.ok && e.req) (rawIdx (fun e => e.req) m.quads 0) := optAt hL hd hg 16 _ .reqQuad (h0 _ (by decide) (by decide)) rfl rfl
      rw [rawIdx_eq, countP_ok_and, hq] at hs
      exact hs
    parQuad := by
      have hs : h'.cnt .parQuad = h.cnt .parQuad := nokey hL hg .parQuad (by decide)
      rw [h0 _ (by decide) (by decide)] at hs
      exact secAt_zero hs _ _
    edge := by
      have hs : SecAt h' .edge m.edges.length (m.edges.flatMap (row m)) := optAt hL hd hg 18 _ .edge (h0 _ (by decide) (by decide)) rfl rfl
      exact hs
    ridge := by
      have hs : SecAt h' .ridge (m.edges.countP fun e => e.geo) (rawIdx (fun e => e.geo) m.edges 0) := optAt hL hd hg 19 _ .ridge (h0 _ (by decide) (by decide)) rfl rfl
      rw [rawIdx_eq] at hs
      exact hs
    reqEdge := by
      have hs : SecAt h' .reqEdge (m.edges.countP fun e => e.req) (rawIdx (fun e => e.req) m.edges 0) := optAt hL hd hg 20 _ .reqEdge (h0 _ (by decide) (by decide)) rfl rfl
      rw [rawIdx_eq] at hs
      exact hs
    parEdge := by
      have hs : h'.cnt .parEdge = h.cnt .parEdge := nokey hL hg .parEdge (by decide)
      rw [h0 _ (by decide) (by decide)] at hs
      exact secAt_zero hs _ _ }

end Mmg.Io
