/-
Property C38: file names, extensions and formats. A C string is a list of characters without its final zero; a
pointer into it is an offset.
-/
import Verif.Util
import Mathlib.Data.List.Basic

namespace Mmg.Name

abbrev Str := List Char

/-! ### Model -/

/-- `strrchr(s,c)`: offset of the last `c`. -/
def strrchr (c : Char) : Str → Option Nat
  | [] => none
  | x :: s =>
    match strrchr c s with
    | some k => some (k + 1)
    | none => if x = c then some 0 else none

/-- `strstr(s,t)`: offset of the first occurrence of `t`. -/
def strstr (t : Str) : Str → Option Nat
  | [] => if t = [] then some 0 else none
  | x :: s => if t.isPrefixOf (x :: s) then some 0 else (strstr t s).map (· + 1)

/-- `p > q` for two pointers into the string, the first one possibly null (a null pointer is below all others). -/
def above (p : Option Nat) (q : Nat) : Bool :=
  match p with
  | none => false
  | some k => q < k

/-- `MMG5_Get_filenameExt`, common/API_functions.c:912-929: offset of the extension (of the end of the string if
there is none). -/
def getFilenameExt (s : Str) : Nat :=
  match strrchr '.' s with
  | none => s.length
  | some dot =>
    if dot = 0 ∨ above (strrchr '/' s) dot ∨ s.drop dot = ['.', 'o'] then s.length else dot

/-- `MMG5_Get_path`, common/API_functions.c:939-964: `none` is a null pointer. -/
def getPath (s : Str) : Option Str := (strrchr '/' s).map (s.take ·)

/-- `MMG5_Remove_ext`, common/API_functions.c:974-1015. A null `ext` is given as the empty string. -/
def removeExt (s ext : Str) : Str :=
  let extloc := if ext = [] then ['.'] else ext
  match strstr extloc s with
  | none => s
  | some k => if above (strrchr '/' s) k then s else s.take k

/-- File formats, `enum MMG5_Format`. -/
inductive Fmt
  | meditASCII | meditBinary | gmshASCII | gmshBinary | vtkPvtp | vtkPvtu | vtkVtu | vtkVtp | vtkVtk | tetgen
  | unknown
  deriving DecidableEq

/-- `!strncmp(ptr,pat,strlen(pat))` for a pattern: the string begins with the pattern. -/
def begins (pat : String) (s : Str) : Bool := pat.toList.isPrefixOf s

/-- `MMG5_Get_format`, common/API_functions.c:816-854. -/
def getFormat (s : Option Str) (dflt : Fmt) : Fmt :=
  match s with
  | none => dflt
  | some s =>
    if begins ".meshb" s then .meditBinary
    else if begins ".mesh" s then .meditASCII
    else if begins ".mshb" s then .gmshBinary
    else if begins ".msh" s then .gmshASCII
    else if begins ".pvtu" s then .vtkPvtu
    else if begins ".vtu" s then .vtkVtu
    else if begins ".pvtp" s then .vtkPvtp
    else if begins ".vtp" s then .vtkVtp
    else if begins ".vtk" s then .vtkVtk
    else if begins ".node" s then .tetgen
    else dflt

/-! ### Lemmas -/

theorem strrchr_none {c : Char} {s : Str} : strrchr c s = none ↔ c ∉ s := by
  induction s with
  | nil => simp [strrchr]
  | cons x s ih =>
    simp only [strrchr]
    cases h : strrchr c s with
    | some k =>
      rw [h] at ih
      simp only [reduceCtorEq, false_iff, not_not] at ih ⊢
      exact List.mem_cons_of_mem _ ih
    | none =>
      have := ih.1 h
      by_cases e : x = c
      · simp [e]
      · simp [e, this, Ne.symm e]

theorem strrchr_append {c : Char} (a b : Str) (h : c ∉ b) : strrchr c (a ++ c :: b) = some a.length := by
  induction a with
  | nil => simp [strrchr, strrchr_none.2 h]
  | cons x a ih => simp [strrchr, ih]

/-- The last occurrence splits the string. -/
theorem strrchr_some {c : Char} {s : Str} {k : Nat} (h : strrchr c s = some k) :
    s = s.take k ++ c :: s.drop (k + 1) ∧ c ∉ s.drop (k + 1) ∧ k < s.length := by
  induction s generalizing k with
  | nil => simp [strrchr] at h
  | cons x s ih =>
    simp only [strrchr] at h
    cases h2 : strrchr c s with
    | some j =>
      rw [h2] at h
      simp only [Option.some.injEq] at h
      subst h
      obtain ⟨e, hn, hl⟩ := ih h2
      refine ⟨?_, by simpa using hn, by simp; omega⟩
      simp only [List.take_succ_cons, List.drop_succ_cons, List.cons_append]
      rw [← e]
    | none =>
      rw [h2] at h
      simp only at h
      split at h
      · next e =>
        simp only [Option.some.injEq] at h
        subst h
        refine ⟨by simp [e], by simpa using strrchr_none.1 h2, by simp⟩
      · cases h

theorem strstr_some {t s : Str} {k : Nat} (h : strstr t s = some k) :
    t <+: s.drop k ∧ k ≤ s.length ∧ ∀ j, j < k → ¬ t <+: s.drop j := by
  induction s generalizing k with
  | nil =>
    simp only [strstr] at h
    split at h
    · next e => simp only [Option.some.injEq] at h; subst h; simp [e]
    · cases h
  | cons x s ih =>
    simp only [strstr] at h
    split at h
    · next e =>
      simp only [Option.some.injEq] at h
      subst h
      exact ⟨by simpa using e, by simp, by intro j hj; omega⟩
    · next e =>
      simp only [Option.map_eq_some_iff] at h
      obtain ⟨j, hj, rfl⟩ := h
      obtain ⟨q1, q2, q3⟩ := ih hj
      refine ⟨by simpa using q1, by simp; omega, ?_⟩
      intro i hi
      cases i with
      | zero => simpa using e
      | succ i => simpa using q3 i (by omega)

theorem strstr_none {t s : Str} (h : strstr t s = none) : ∀ j, j ≤ s.length → ¬ t <+: s.drop j := by
  induction s with
  | nil =>
    simp only [strstr] at h
    split at h
    · cases h
    · next e => intro j _; simpa using e
  | cons x s ih =>
    simp only [strstr] at h
    split at h
    · cases h
    · next e =>
      simp only [Option.map_eq_none_iff] at h
      intro j hj
      cases j with
      | zero => simpa using e
      | succ j => simpa using ih h j (by simpa using hj)

/-! ### C38 -/

/-- `e` is the extension of `s` in the sense of the claim: `s` is a non empty stem, a dot and `e`, with neither dot
nor separator in `e`; the name `.o` is not an extension for this library. -/
def HasExt (s e : Str) : Prop :=
  ∃ stem, stem ≠ [] ∧ s = stem ++ '.' :: e ∧ '.' ∉ e ∧ '/' ∉ e ∧ e ≠ ['o']

/-- **C38** The finder returns exactly the extension when there is one and the end of the string otherwise. -/
theorem C38_extension (s : Str) :
    (∀ e, HasExt s e → s.drop (getFilenameExt s) = '.' :: e) ∧
    ((¬ ∃ e, HasExt s e) → s.drop (getFilenameExt s) = []) := by
  constructor
  · rintro e ⟨stem, hs, rfl, h1, h2, h3⟩
    have hd := strrchr_append stem e h1
    have hcond : ¬ (stem.length = 0 ∨ above (strrchr '/' (stem ++ '.' :: e)) stem.length = true ∨
        (stem ++ '.' :: e).drop stem.length = ['.', 'o']) := by
      rintro (h | h | h)
      · exact hs (List.length_eq_zero_iff.1 h)
      · cases hp : strrchr '/' (stem ++ '.' :: e) with
        | none => rw [hp] at h; simp [above] at h
        | some k =>
          rw [hp] at h
          simp only [above, decide_eq_true_eq] at h
          obtain ⟨q1, q2, q3⟩ := strrchr_some hp
          have hk : (stem ++ '.' :: e)[k]? = some '/' := by
            rw [q1]
            rw [List.getElem?_append_right (by simp)]
            simp only [List.length_take]
            rw [Nat.min_eq_left (by omega)]
            simp
          rw [List.getElem?_append_right (by omega)] at hk
          have : k - stem.length = (k - stem.length - 1) + 1 := by omega
          rw [this, List.getElem?_cons_succ] at hk
          exact h2 (List.mem_of_getElem? hk)
      · simp only [List.drop_left] at h
        exact h3 (by simpa using h)
    unfold getFilenameExt
    rw [hd]
    simp only
    rw [if_neg hcond]
    exact List.drop_left
  · intro hno
    unfold getFilenameExt
    cases hd : strrchr '.' s with
    | none => simp
    | some dot =>
      simp only
      split
      · simp
      · next hc =>
        rw [not_or, not_or] at hc
        obtain ⟨c1, c2, c3⟩ := hc
        exfalso
        obtain ⟨q1, q2, q3⟩ := strrchr_some hd
        refine hno ⟨s.drop (dot + 1), s.take dot, ?_, q1, q2, ?_, ?_⟩
        · intro h
          have := congrArg List.length h
          simp only [List.length_take, List.length_nil] at this
          omega
        · intro hm
          cases hp : strrchr '/' s with
          | none => exact strrchr_none.1 hp (List.mem_of_mem_drop hm)
          | some k =>
            rw [hp] at c2
            simp only [above, decide_eq_true_eq, not_lt] at c2
            obtain ⟨_, r2, _⟩ := strrchr_some hp
            apply r2
            have hsub : s.drop (dot + 1) = (s.drop (k + 1)).drop (dot - k) := by
              rw [List.drop_drop]; congr 1; omega
            rw [hsub] at hm
            exact List.mem_of_mem_drop hm
        · intro h
          apply c3
          have : s.drop dot = '.' :: s.drop (dot + 1) := by
            conv_lhs => rw [q1]
            rw [List.drop_append_of_le_length (by simp; omega)]
            rw [List.drop_of_length_le (by simp)]
            simp
          rw [this, h]

/-- The claim treats a last component made of a leading dot and a name (such as `dir/.name`) as having no
extension; the code only does so when there is no directory. -/
theorem C38_hidden_file_false :
    "dir/.name".toList.drop (getFilenameExt "dir/.name".toList) = ".name".toList ∧
    ".name".toList.drop (getFilenameExt ".name".toList) = [] := by decide

/-- **C38** Removal of a given extension, partial: the stem is returned if the extension does not occur earlier in
the path (and contains no separator). -/
theorem C38_remove_partial (stem ext : Str) (he : ext ≠ []) (hsep : '/' ∉ ext)
    (hfirst : ∀ j, j < stem.length → ¬ ext <+: (stem ++ ext).drop j) : removeExt (stem ++ ext) ext = stem := by
  unfold removeExt
  simp only [he, if_false]
  cases h : strstr ext (stem ++ ext) with
  | none =>
    exact absurd (by rw [List.drop_left]) (strstr_none h stem.length (by simp))
  | some k =>
    obtain ⟨q1, q2, q3⟩ := strstr_some h
    have hk : k = stem.length := by
      rcases Nat.lt_trichotomy k stem.length with hl | he | hg
      · exact absurd q1 (hfirst k hl)
      · exact he
      · exact absurd (by rw [List.drop_left]) (q3 stem.length hg)
    subst hk
    simp only
    rw [if_neg]
    · exact List.take_left
    · cases hp : strrchr '/' (stem ++ ext) with
      | none => simp [above]
      | some k =>
        simp only [above, decide_eq_true_eq, not_lt]
        by_contra hc
        obtain ⟨r1, r2, r3⟩ := strrchr_some hp
        have hk : (stem ++ ext)[k]? = some '/' := by
          rw [r1]
          rw [List.getElem?_append_right (by simp)]
          simp only [List.length_take]
          rw [Nat.min_eq_left (by omega)]
          simp
        rw [List.getElem?_append_right (by omega)] at hk
        exact hsep (List.mem_of_getElem? hk)

/-- **C38** Removal of the default extension, partial: everything from the first dot is removed, provided no
separator follows it. -/
theorem C38_remove_default_partial (stem e : Str) (h1 : '.' ∉ stem) (h2 : '/' ∉ e) :
    removeExt (stem ++ '.' :: e) [] = stem := by
  unfold removeExt
  simp only [if_true]
  have hpre : ∀ (s : Str) (j : Nat), ['.'] <+: s.drop j → s[j]? = some '.' := by
    intro s j hp
    obtain ⟨t, ht⟩ := hp
    have : (s.drop j)[0]? = some '.' := by rw [← ht]; rfl
    simpa using this
  cases h : strstr ['.'] (stem ++ '.' :: e) with
  | none =>
    refine absurd ?_ (strstr_none h stem.length (by simp))
    rw [List.drop_left]; exact ⟨e, rfl⟩
  | some k =>
    obtain ⟨q1, q2, q3⟩ := strstr_some h
    have hk : k = stem.length := by
      rcases Nat.lt_trichotomy k stem.length with hl | he | hg
      · have := hpre _ _ q1
        rw [List.getElem?_append_left hl] at this
        exact absurd (List.mem_of_getElem? this) h1
      · exact he
      · refine absurd ?_ (q3 stem.length hg)
        rw [List.drop_left]; exact ⟨e, rfl⟩
    subst hk
    simp only
    rw [if_neg]
    · exact List.take_left
    · cases hp : strrchr '/' (stem ++ '.' :: e) with
      | none => simp [above]
      | some k =>
        simp only [above, decide_eq_true_eq, not_lt]
        by_contra hc
        obtain ⟨r1, r2, r3⟩ := strrchr_some hp
        have hk : (stem ++ '.' :: e)[k]? = some '/' := by
          rw [r1]
          rw [List.getElem?_append_right (by simp)]
          simp only [List.length_take]
          rw [Nat.min_eq_left (by omega)]
          simp
        rw [List.getElem?_append_right (by omega)] at hk
        have : k - stem.length = (k - stem.length - 1) + 1 := by omega
        rw [this, List.getElem?_cons_succ] at hk
        exact h2 (List.mem_of_getElem? hk)

/-- **C38**, refuted for removal: the first occurrence is used, not the last one. A directory with a dot prevents the
removal and an earlier dot truncates the name. -/
theorem C38_remove_false :
    removeExt "v1.0/cube.mesh".toList [] = "v1.0/cube.mesh".toList ∧
    removeExt "cube.v2.mesh".toList [] = "cube".toList ∧
    removeExt "a.mesh.d/cube.mesh".toList ".mesh".toList = "a.mesh.d/cube.mesh".toList := by decide

/-- **C38** The directory part. -/
theorem C38_path (dir base : Str) (h : '/' ∉ base) : getPath (dir ++ '/' :: base) = some dir ∧
    getPath base = none := by
  unfold getPath
  rw [strrchr_append dir base h, strrchr_none.2 h]
  simp

/-- **C38** The format of each known extension (exact extension), and the default for anything that does not begin
like one. -/
theorem C38_format (d : Fmt) :
    getFormat (some ".mesh".toList) d = .meditASCII ∧ getFormat (some ".meshb".toList) d = .meditBinary ∧
    getFormat (some ".msh".toList) d = .gmshASCII ∧ getFormat (some ".mshb".toList) d = .gmshBinary ∧
    getFormat (some ".vtu".toList) d = .vtkVtu ∧ getFormat (some ".vtp".toList) d = .vtkVtp ∧
    getFormat (some ".vtk".toList) d = .vtkVtk ∧ getFormat (some ".pvtu".toList) d = .vtkPvtu ∧
    getFormat (some ".pvtp".toList) d = .vtkPvtp ∧ getFormat (some ".node".toList) d = .tetgen ∧
    getFormat none d = d ∧ (∀ s : Str, (∀ p ∈ [".mesh", ".msh", ".pvtu", ".vtu", ".pvtp", ".vtp", ".vtk", ".node"],
      ¬ p.toList <+: s) → getFormat (some s) d = d) := by
  refine ⟨rfl, rfl, rfl, rfl, rfl, rfl, rfl, rfl, rfl, rfl, rfl, ?_⟩
  intro s h
  have hb : ∀ p : String, ¬ p.toList <+: s → begins p s = false := by
    intro p hp
    unfold begins
    rw [← Bool.not_eq_true, List.isPrefixOf_iff_prefix]
    exact hp
  have hm : ¬ (".meshb".toList <+: s) := fun hp =>
    h ".mesh" (by simp) (List.IsPrefix.trans (by decide) hp)
  have hg : ¬ (".mshb".toList <+: s) := fun hp =>
    h ".msh" (by simp) (List.IsPrefix.trans (by decide) hp)
  simp only [getFormat, hb _ hm, hb _ hg, hb _ (h ".mesh" (by simp)), hb _ (h ".msh" (by simp)),
    hb _ (h ".pvtu" (by simp)), hb _ (h ".vtu" (by simp)), hb _ (h ".pvtp" (by simp)), hb _ (h ".vtp" (by simp)),
    hb _ (h ".vtk" (by simp)), hb _ (h ".node" (by simp)), Bool.false_eq_true, if_false]

/-- **C38** End to end: a name made of any stem and a known extension is recognized, whatever dots and separators
the stem contains. -/
theorem C38_format_of_name (stem : Str) (hs : stem ≠ []) (d : Fmt) :
    getFormat (some ((stem ++ ".mesh".toList).drop (getFilenameExt (stem ++ ".mesh".toList)))) d = .meditASCII ∧
    getFormat (some ((stem ++ ".meshb".toList).drop (getFilenameExt (stem ++ ".meshb".toList)))) d = .meditBinary ∧
    getFormat (some ((stem ++ ".vtu".toList).drop (getFilenameExt (stem ++ ".vtu".toList)))) d = .vtkVtu := by
  have h1 := (C38_extension (stem ++ ".mesh".toList)).1 "mesh".toList
    ⟨stem, hs, rfl, by decide, by decide, by decide⟩
  have h2 := (C38_extension (stem ++ ".meshb".toList)).1 "meshb".toList
    ⟨stem, hs, rfl, by decide, by decide, by decide⟩
  have h3 := (C38_extension (stem ++ ".vtu".toList)).1 "vtu".toList
    ⟨stem, hs, rfl, by decide, by decide, by decide⟩
  rw [h1, h2, h3]
  exact ⟨rfl, rfl, rfl⟩

example : HasExt "v1.0/cube.mesh".toList "mesh".toList :=
  ⟨"v1.0/cube".toList, by decide, by decide, by decide, by decide, by decide⟩

example : removeExt ("dir/cube".toList ++ ".mesh".toList) ".mesh".toList = "dir/cube".toList :=
  C38_remove_partial _ _ (by decide) (by decide) (by decide)

end Mmg.Name
