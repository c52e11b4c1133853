/-
  Lemmas on the files of `IoModel`: what the first pass finds, and how the data are read back.
-/
import Verif.IoModel
import Mathlib.Data.List.Nodup
import Mathlib.Data.List.Pairwise
import Mathlib.Tactic.Ring

namespace Mmg.Io

variable {R : Type}

/-! ### First pass -/

/-- No word. -/
def NoWord (l : List (Tok R)) : Prop := ∀ t ∈ l, ∀ w, t ≠ .word w

/-- What the first pass must find: the parts with a key, and the old counts for the other keys. -/
def Good (κ : Sec R → Option Kw) (secs : List (Sec R)) (h h' : Hdr R) : Prop :=
  h'.ver = h.ver ∧
  (∀ s ∈ secs, ∀ k, κ s = some k → h'.cnt k = s.n ∧ ∃ t, h'.pos k = s.data ++ t) ∧
  (∀ k, (∀ s ∈ secs, κ s ≠ some k) → h'.cnt k = h.cnt k ∧ h'.pos k = h.pos k)

theorem scanA_noWord (d : List (Tok R)) (r : List (Tok R)) (h : Hdr R) (hd : NoWord d) :
    scanA (d ++ r) h = scanA r h := by
  induction d with
  | nil => rfl
  | cons t d ih =>
    have h2 : NoWord d := fun x hx => hd x (List.mem_cons_of_mem _ hx)
    cases t with
    | word w => exact absurd rfl (hd (.word w) (List.mem_cons_self ..) w)
    | int i => rw [List.cons_append, scanA]; exact ih h2
    | real i => rw [List.cons_append, scanA]; exact ih h2

theorem scanA_word (w : String) (r : List (Tok R)) (h : Hdr R) :
    scanA (.word w :: r) h = match classify w with
    | .stop => some h
    | .skip => scanA r h
    | .ver => match r with
      | .int v :: r' => scanA r' { h with ver := v }
      | _ => none
    | .dim => match r with
      | .int d :: r' => if d = 3 then scanA r' h else none
      | _ => none
    | .sec k =>
      if k = .norm ∧ h.cnt .norm ≠ 0 then scanA r h
      else match r with
      | .int n :: r' => scanA r' (h.set k n r')
      | _ => none := by
  rw [scanA.eq_def]
  simp only
  cases classify w <;> rfl

theorem scanA_int (i : Int) (r : List (Tok R)) (h : Hdr R) : scanA (.int i :: r) h = scanA r h := by
  rw [scanA]

/-- Distinct keys. -/
def Distinct (κ : Sec R → Option Kw) (secs : List (Sec R)) : Prop :=
  secs.Pairwise fun a b => ∀ k, κ a = some k → κ b ≠ some k

theorem good_set (κ : Sec R → Option Kw) (s : Sec R) (secs : List (Sec R)) (h h' : Hdr R) (k : Kw)
    (t : List (Tok R)) (hk : κ s = some k) (hd : ∀ b ∈ secs, κ b ≠ some k)
    (hg : Good κ secs (h.set k s.n (s.data ++ t)) h') : Good κ (s :: secs) h h' := by
  obtain ⟨h1, h2, h3⟩ := hg
  refine ⟨h1, ?_, ?_⟩
  · intro a ha k' hk'
    rcases List.mem_cons.1 ha with rfl | ha
    · obtain rfl : k = k' := by rw [hk] at hk'; exact Option.some.inj hk'
      obtain ⟨e1, e2⟩ := h3 k hd
      rw [e1, e2]
      simp only [Hdr.set, if_pos]
      exact ⟨trivial, t, rfl⟩
    · exact h2 a ha k' hk'
  · intro k' hk'
    have hne : k' ≠ k := by
      rintro rfl
      exact hk' s (List.mem_cons_self ..) hk
    obtain ⟨e1, e2⟩ := h3 k' fun a ha => hk' a (List.mem_cons_of_mem _ ha)
    rw [e1, e2]
    simp only [Hdr.set, if_neg hne]
    exact ⟨trivial, trivial⟩

theorem good_skip (κ : Sec R → Option Kw) (s : Sec R) (secs : List (Sec R)) (h h' : Hdr R)
    (hk : κ s = none) (hg : Good κ secs h h') : Good κ (s :: secs) h h' := by
  obtain ⟨h1, h2, h3⟩ := hg
  refine ⟨h1, ?_, fun k' hk' => h3 k' fun a ha => hk' a (List.mem_cons_of_mem _ ha)⟩
  intro a ha k' hk'
  rcases List.mem_cons.1 ha with rfl | ha
  · rw [hk] at hk'; cases hk'
  · exact h2 a ha k' hk'

theorem scanA_spec (κ : Sec R → Option Kw) :
    ∀ (secs : List (Sec R)) (h : Hdr R),
      (∀ s ∈ secs, classify s.name = match κ s with | some k => .sec k | none => .skip) →
      (∀ s ∈ secs, NoWord s.data) → Distinct κ secs →
      ((∃ s ∈ secs, κ s = some .norm) → h.cnt .norm = 0) →
      ∃ h', scanA (secs.flatMap txt ++ [.word "End"]) h = some h' ∧ Good κ secs h h' := by
  intro secs
  induction secs with
  | nil =>
    intro h _ _ _ _
    refine ⟨h, ?_, rfl, by simp, by simp⟩
    have hc : classify "End" = .stop := by decide
    simp only [List.flatMap_nil, List.nil_append]
    rw [scanA_word, hc]
  | cons s secs ih =>
    intro h hc hw hd hn
    obtain ⟨hd1, hd2⟩ := List.pairwise_cons.1 hd
    have hcs := hc s (List.mem_cons_self ..)
    have hws := hw s (List.mem_cons_self ..)
    have hc' := fun a ha => hc a (List.mem_cons_of_mem s ha)
    have hw' := fun a ha => hw a (List.mem_cons_of_mem s ha)
    cases hk : κ s with
    | none =>
      rw [hk] at hcs
      obtain ⟨h', e, hg⟩ := ih h hc' hw' hd2 fun ⟨a, ha, hb⟩ =>
        hn ⟨a, List.mem_cons_of_mem _ ha, hb⟩
      refine ⟨h', ?_, good_skip κ s secs h h' hk hg⟩
      simp only [List.flatMap_cons, txt, List.cons_append, List.append_assoc]
      rw [scanA_word, hcs]
      simp only
      rw [scanA_int, scanA_noWord _ _ _ hws]
      exact e
    | some k =>
      rw [hk] at hcs
      have hno : ∀ b ∈ secs, κ b ≠ some k := fun b hb => hd1 b hb k hk
      set t := secs.flatMap txt ++ [Tok.word "End"] with ht
      obtain ⟨h', e, hg⟩ := ih (h.set k s.n (s.data ++ t)) hc' hw' hd2 (by
        rintro ⟨a, ha, hb⟩
        have hne : Kw.norm ≠ k := by
          rintro rfl
          exact hno a ha hb
        simp only [Hdr.set, if_neg hne]
        exact hn ⟨a, List.mem_cons_of_mem _ ha, hb⟩)
      refine ⟨h', ?_, good_set κ s secs h h' k t hk hno hg⟩
      simp only [List.flatMap_cons, txt, List.cons_append, List.append_assoc]
      rw [scanA_word, hcs]
      have hnn : ¬ (k = .norm ∧ h.cnt .norm ≠ 0) := by
        rintro ⟨rfl, h2⟩
        exact h2 (hn ⟨s, List.mem_cons_self .., hk⟩)
      simp only [if_neg hnn]
      rw [scanA_noWord _ _ _ hws]
      exact e

/-- Number of 4-byte words of a token. -/
def wid : Tok R → Nat
  | .word _ => 1
  | .int _ => 1
  | .real _ => 2

def width (l : List (Tok R)) : Nat := (l.map wid).sum

@[simp] theorem width_nil : width ([] : List (Tok R)) = 0 := rfl

@[simp] theorem width_cons (t : Tok R) (l : List (Tok R)) : width (t :: l) = wid t + width l := by
  simp [width]

@[simp] theorem width_append (a b : List (Tok R)) : width (a ++ b) = width a + width b := by
  simp [width]

theorem seek_zero (l : List (Tok R)) : seek l 0 = some l := by
  cases l <;> simp [seek]

theorem seek_append (a b : List (Tok R)) (h : NoWord a) : seek (a ++ b) (width a) = some b := by
  induction a with
  | nil => exact seek_zero b
  | cons t a ih =>
    have h2 : NoWord a := fun x hx => h x (List.mem_cons_of_mem _ hx)
    cases t with
    | word w => exact absurd rfl (h (.word w) (List.mem_cons_self ..) w)
    | int i =>
      rw [width_cons, List.cons_append]
      simp only [wid, Nat.add_comm 1]
      rw [seek]; exact ih h2
    | real i =>
      rw [width_cons, List.cons_append]
      simp only [wid, Nat.add_comm 2]
      rw [seek]; exact ih h2

theorem seekB_append (a b : List (Tok R)) (h : NoWord a) :
    seekB (a ++ b) ((width a : Int) * 4) = some b := by
  unfold seekB
  rw [if_pos (by omega)]
  have : ((width a : Int) * 4 / 4).toNat = width a := by omega
  rw [this]
  exact seek_append a b h

theorem scanB_int (file : List (Tok R)) (fuel : Nat) (b p n : Int) (r : List (Tok R)) (h : Hdr R)
    (hb : b ≠ 54) :
    scanB file (fuel + 1) (.int b :: .int p :: .int n :: r) 3 h =
      match seekB file p with
      | none => none
      | some t => scanB file fuel t 3 (match codeOf h b with | some k => h.set k n r | none => h) := by
  rw [scanB.eq_def]
  simp only
  rw [if_neg hb, if_neg (by omega)]
  cases codeOf h b <;> cases hs : seekB file p <;> simp only [hs]

/-- Codes without the conditions. -/
def kwOfCode (b : Int) : Option Kw :=
  if b = 4 then some .vert
  else if b = 15 then some .reqV
  else if b = 6 then some .tria
  else if b = 17 then some .reqTria
  else if b = 7 then some .quad
  else if b = 18 then some .reqQuad
  else if b = 8 then some .tet
  else if b = 9 then some .prism
  else if b = 12 then some .reqTet
  else if b = 13 then some .corn
  else if b = 5 then some .edge
  else if b = 16 then some .reqEdge
  else if b = 14 then some .ridge
  else if b = 60 then some .norm
  else if b = 20 then some .normAt
  else none

theorem codeOf_eq (h : Hdr R) (b : Int) (hk : ∀ k, kwOfCode b = some k → h.cnt k = 0) :
    codeOf h b = kwOfCode b := by
  by_cases h4 : b = 4
  · subst h4
    have := hk .vert (by decide)
    simp [codeOf, kwOfCode, this]
  by_cases h15 : b = 15
  · subst h15
    simp [codeOf, kwOfCode]
  by_cases h6 : b = 6
  · subst h6
    have := hk .tria (by decide)
    simp [codeOf, kwOfCode, this]
  by_cases h17 : b = 17
  · subst h17
    simp [codeOf, kwOfCode]
  by_cases h7 : b = 7
  · subst h7
    have := hk .quad (by decide)
    simp [codeOf, kwOfCode, this]
  by_cases h18 : b = 18
  · subst h18
    simp [codeOf, kwOfCode]
  by_cases h8 : b = 8
  · subst h8
    have := hk .tet (by decide)
    simp [codeOf, kwOfCode, this]
  by_cases h9 : b = 9
  · subst h9
    have := hk .prism (by decide)
    simp [codeOf, kwOfCode, this]
  by_cases h12 : b = 12
  · subst h12
    simp [codeOf, kwOfCode]
  by_cases h13 : b = 13
  · subst h13
    have := hk .corn (by decide)
    simp [codeOf, kwOfCode, this]
  by_cases h5 : b = 5
  · subst h5
    have := hk .edge (by decide)
    simp [codeOf, kwOfCode, this]
  by_cases h16 : b = 16
  · subst h16
    simp [codeOf, kwOfCode]
  by_cases h14 : b = 14
  · subst h14
    simp [codeOf, kwOfCode]
  by_cases h60 : b = 60
  · subst h60
    have := hk .norm (by decide)
    simp [codeOf, kwOfCode, this]
  by_cases h20 : b = 20
  · subst h20
    simp [codeOf, kwOfCode]
  simp [codeOf, kwOfCode, h4, h15, h6, h17, h7, h18, h8, h9, h12, h13, h5, h16, h14, h60, h20]

theorem noWord_append {a b : List (Tok R)} : NoWord (a ++ b) ↔ NoWord a ∧ NoWord b := by
  simp [NoWord, or_imp, forall_and]

theorem noWord_cons {t : Tok R} {b : List (Tok R)} :
    NoWord (t :: b) ↔ (∀ w, t ≠ .word w) ∧ NoWord b := by
  simp [NoWord]

theorem scanB_spec (file : List (Tok R)) :
    ∀ (secs : List (Sec R)) (P : List (Tok R)) (fuel : Nat) (h : Hdr R),
      file = P ++ binParts ((width P : Int) * 4) secs → NoWord P →
      (∀ s ∈ secs, s.code ≠ none → NoWord s.data ∧ width s.data = s.w * s.n) →
      (∀ s ∈ secs, s.code ≠ some 54) →
      Distinct (fun s => s.code.bind kwOfCode) secs →
      (∀ s ∈ secs, ∀ k, s.code.bind kwOfCode = some k → h.cnt k = 0) →
      secs.length < fuel →
      ∃ h', scanB file fuel (binParts ((width P : Int) * 4) secs) 3 h = some h' ∧
        Good (fun s => s.code.bind kwOfCode) secs h h' := by
  intro secs
  induction secs with
  | nil =>
    intro P fuel h hf _ _ _ _ _ hl
    obtain ⟨fuel, rfl⟩ : ∃ n, fuel = n + 1 := ⟨fuel - 1, by simp at hl; omega⟩
    refine ⟨h, ?_, rfl, by simp, by simp⟩
    simp [binParts, scanB]
  | cons s secs ih =>
    intro P fuel h hf hP hw h54 hd hz hl
    obtain ⟨hd1, hd2⟩ := List.pairwise_cons.1 hd
    have hw' := fun a ha => hw a (List.mem_cons_of_mem s ha)
    have h54' := fun a ha => h54 a (List.mem_cons_of_mem s ha)
    have hz' := fun a ha => hz a (List.mem_cons_of_mem s ha)
    obtain ⟨fuel, rfl⟩ : ∃ n, fuel = n + 1 := ⟨fuel - 1, by simp at hl; omega⟩
    cases hc : s.code with
    | none =>
      have e : binParts ((width P : Int) * 4) (s :: secs) = binParts ((width P : Int) * 4) secs := by
        rw [binParts, hc]
      rw [e] at hf ⊢
      obtain ⟨h', e', hg⟩ := ih P (fuel + 1) h hf hP hw' h54' hd2 hz' (by simp at hl; omega)
      exact ⟨h', e', good_skip _ s secs h h' (by simp [hc]) hg⟩
    | some c =>
      obtain ⟨hws, hwd⟩ := hw s (List.mem_cons_self ..) (by simp [hc])
      set bp : Int := (width P : Int) * 4 + (3 + s.w * s.n) * 4 with hbp
      set P' : List (Tok R) := P ++ .int c :: .int bp :: .int s.n :: s.data with hP'
      have hwP' : (width P' : Int) * 4 = bp := by
        rw [hP', hbp]
        simp only [width_append, width_cons, wid, hwd]
        push_cast
        ring
      have e : binParts ((width P : Int) * 4) (s :: secs)
          = .int c :: .int bp :: .int s.n :: s.data ++ binParts bp secs := by
        rw [binParts, hc]
      have hf' : file = P' ++ binParts bp secs := by
        rw [hf, e, hP']
        simp
      have hP'w : NoWord P' := by
        rw [hP', noWord_append]
        refine ⟨hP, ?_⟩
        simp only [noWord_cons]
        simp [hws]
      have hne : c ≠ 54 := by
        rintro rfl
        exact h54 s (List.mem_cons_self ..) hc
      have hsk : seekB file bp = some (binParts bp secs) := by
        rw [hf', ← hwP']
        exact seekB_append _ _ hP'w
      have hco : codeOf h c = kwOfCode c :=
        codeOf_eq h c fun k hk => hz s (List.mem_cons_self ..) k (by simp [hc, hk])
      rw [e]
      cases hk : kwOfCode c with
      | none =>
        obtain ⟨h', e', hg⟩ := ih P' fuel h (by rw [hwP']; exact hf') hP'w hw' h54' hd2 hz'
          (by simp at hl; omega)
        refine ⟨h', ?_, good_skip _ s secs h h' (by simp [hc, hk]) hg⟩
        rw [hwP'] at e'
        simp only [List.cons_append]
        rw [scanB_int _ _ _ _ _ _ _ hne, hsk, hco, hk]
        exact e'
      | some k =>
        have hks : s.code.bind kwOfCode = some k := by simp [hc, hk]
        have hno : ∀ b ∈ secs, b.code.bind kwOfCode ≠ some k := fun b hb => hd1 b hb k hks
        obtain ⟨h', e', hg⟩ := ih P' fuel (h.set k s.n (s.data ++ binParts bp secs))
          (by rw [hwP']; exact hf') hP'w hw' h54' hd2 (by
            intro a ha k' hk'
            have hne' : k' ≠ k := by
              rintro rfl
              exact hno a ha hk'
            simp only [Hdr.set, if_neg hne']
            exact hz' a ha k' hk') (by simp at hl; omega)
        refine ⟨h', ?_, good_set _ s secs h h' k _ hks hno hg⟩
        rw [hwP'] at e'
        simp only [List.cons_append]
        rw [scanB_int _ _ _ _ _ _ _ hne, hsk, hco, hk]
        exact e'

/-! ### Lists of numbers -/

/-- Ranks (from `n + 1`) of the entities with a property. -/
def markIdx {α : Type} (f : α → Bool) : List α → Nat → List Nat
  | [], _ => []
  | x :: l, n => if f x then (n + 1) :: markIdx f l (n + 1) else markIdx f l (n + 1)

theorem markIdx_length {α : Type} (f : α → Bool) (l : List α) (n : Nat) :
    (markIdx f l n).length = l.countP f := by
  induction l generalizing n with
  | nil => rfl
  | cons x l ih =>
    rw [markIdx, List.countP_cons]
    split_ifs <;> simp [ih]

def ints (l : List Nat) : List (Tok R) := l.map fun (n : Nat) => .int (n : Int)

theorem ptIdx_eq_aux (f : Pt R → Bool) (l : List (Pt R)) (n : Nat) :
    ((l.zip (tmps l n)).filter fun q => q.1.ok && f q.1).map (fun q => (Tok.int q.2 : Tok R))
      = ints (markIdx f (l.filter fun p => p.ok) n) := by
  induction l generalizing n with
  | nil => rfl
  | cons p l ih =>
    rw [tmps]
    by_cases h : p.ok
    · rw [if_pos h, List.zip_cons_cons, List.filter_cons_of_pos h, markIdx]
      by_cases hf : f p
      · rw [List.filter_cons_of_pos (by simp [h, hf]), if_pos hf, List.map_cons, ih]
        simp [ints]
      · rw [List.filter_cons_of_neg (by simp [hf]), if_neg hf, ih]
    · rw [if_neg h, List.zip_cons_cons, List.filter_cons_of_neg (by simp [h]),
        List.filter_cons_of_neg h, ih]

theorem ptIdx_eq (f : Pt R → Bool) (l : List (Pt R)) :
    ptIdx f l = ints (markIdx f (l.filter fun p => p.ok) 0) := ptIdx_eq_aux f l 0

theorem eltIdx_eq (f : Elt → Bool) (l : List Elt) (n : Nat) :
    (eltIdx f l n : List (Tok R)) = ints (markIdx f (l.filter fun e => e.ok) n) := by
  induction l generalizing n with
  | nil => rfl
  | cons e l ih =>
    rw [eltIdx]
    by_cases h : e.ok
    · rw [if_pos h, List.filter_cons_of_pos h, markIdx]
      by_cases hf : f e
      · simp [hf, ints, ih]
      · simp [hf, ih]
    · rw [if_neg h, List.filter_cons_of_neg h, ih]

theorem rawIdx_eq (f : Elt → Bool) (l : List Elt) (n : Nat) :
    (rawIdx f l n : List (Tok R)) = ints (markIdx f l n) := by
  induction l generalizing n with
  | nil => rfl
  | cons e l ih =>
    rw [rawIdx, markIdx]
    by_cases hf : f e
    · simp [hf, ints, ih]
    · simp [hf, ih]

theorem noWord_ints (l : List Nat) : NoWord (ints l : List (Tok R)) := by
  intro t ht w
  simp only [ints, List.mem_map] at ht
  obtain ⟨a, _, rfl⟩ := ht
  simp

theorem width_ints (l : List Nat) : width (ints l : List (Tok R)) = l.length := by
  induction l with
  | nil => rfl
  | cons a l ih =>
    have : (ints (a :: l) : List (Tok R)) = .int a :: ints l := rfl
    rw [this, width_cons, ih]
    simp [wid]
    omega

/-! ### Reading lists -/

theorem readN_flatMap {α β : Type} (f : List (Tok R) → Option (β × List (Tok R)))
    (enc : α → List (Tok R)) (g : α → β) (l : List α) (t : List (Tok R))
    (h : ∀ x ∈ l, ∀ t, f (enc x ++ t) = some (g x, t)) :
    readN f l.length (l.flatMap enc ++ t) = some (l.map g) := by
  induction l with
  | nil => rfl
  | cons x l ih =>
    rw [List.length_cons, List.flatMap_cons, List.append_assoc, readN,
      h x (List.mem_cons_self ..)]
    simp only
    rw [ih fun y hy => h y (List.mem_cons_of_mem _ hy)]
    rfl

theorem readN_ints (l : List Nat) (t : List (Tok R)) :
    readN readInt l.length (ints l ++ t) = some (l.map fun (n : Nat) => (n : Int)) := by
  have h := readN_flatMap (R := R) readInt (fun n : Nat => [Tok.int n]) (fun n => (n : Int)) l t
    (fun x _ t => rfl)
  have e : l.flatMap (fun n : Nat => [(Tok.int n : Tok R)]) = ints l := by
    induction l with
    | nil => rfl
    | cons a l ih => exact congrArg (List.cons (Tok.int (R := R) a)) (ih (readN_flatMap (R := R) readInt
        (fun n : Nat => [Tok.int n]) (fun n => (n : Int)) l t (fun x _ t => rfl)))
  rw [← e]
  exact h

theorem modify_mid {α : Type} (f : α → α) (P l : List α) (x : α) :
    (P ++ x :: l).modify P.length f = P ++ f x :: l := by
  induction P with
  | nil => rfl
  | cons p P ih => simp [ih]

theorem marks_cons {α : Type} (f : α → α) (l l' : List α) (i : Int) (is : List Int)
    (h : mark f l i = some l') : marks f l (i :: is) = marks f l' is := by
  rw [marks.eq_def]
  simp only [h]

theorem marks_spec {α β : Type} (f : α → Bool) (g : β → β) (e : α → β) :
    ∀ (l : List α) (P : List β),
      marks g (P ++ l.map e) ((markIdx f l P.length).map fun (n : Nat) => (n : Int))
        = some (P ++ l.map fun x => if f x then g (e x) else e x) := by
  intro l
  induction l with
  | nil => intro P; rfl
  | cons x l ih =>
    intro P
    have hlen : (P ++ [if f x then g (e x) else e x]).length = P.length + 1 := by simp
    have hih := ih (P ++ [if f x then g (e x) else e x])
    rw [hlen, List.append_assoc, List.append_assoc] at hih
    rw [markIdx]
    by_cases hf : f x
    · rw [if_pos hf] at hih ⊢
      have hm : mark g (P ++ (x :: l).map e) ((P.length + 1 : Nat) : Int)
          = some (P ++ (g (e x) :: l.map e)) := by
        unfold mark
        rw [if_neg (by omega), if_neg (by
          simp only [List.length_append, List.length_map, List.length_cons]; push_cast; omega)]
        congr 1
        have : (((P.length + 1 : Nat) : Int) - 1).toNat = P.length := by omega
        rw [this, List.map_cons, modify_mid]
      rw [List.map_cons (f := fun n : Nat => (n : Int)), marks_cons _ _ _ _ _ hm]
      simpa [hf] using hih
    · rw [if_neg hf] at hih ⊢
      simpa [hf] using hih

/-- What the second pass needs from the first one. -/
def SecAt (h : Hdr R) (k : Kw) (n : Nat) (data : List (Tok R)) : Prop :=
  h.cnt k = n ∧ (n ≠ 0 → ∃ t, h.pos k = data ++ t)

theorem readMarks_spec {α β : Type} (f : α → Bool) (g : β → β) (e : α → β) (l : List α)
    (h : Hdr R) (k : Kw) (hs : SecAt h k (l.countP f) (ints (markIdx f l 0))) :
    readMarks g h k (l.map e) = some (l.map fun x => if f x then g (e x) else e x) := by
  obtain ⟨h1, h2⟩ := hs
  have hm := marks_spec f g e l []
  simp only [List.nil_append, List.length_nil] at hm
  unfold readMarks
  split_ifs with h0
  · have h00 : l.countP f = 0 := by omega
    congr 1
    apply List.map_congr_left
    intro x hx
    rw [if_neg]
    exact List.countP_eq_zero.1 h00 x hx
  · obtain ⟨t, ht⟩ := h2 (by omega)
    rw [ht, h1]
    have := readN_ints (R := R) (markIdx f l 0) t
    rw [markIdx_length] at this
    simp only [Int.toNat_natCast, this]
    exact hm

theorem readMarks_none {β : Type} (g : β → β) (l : List β) (h : Hdr R) (k : Kw)
    (h0 : h.cnt k = 0) : readMarks g h k l = some l := by
  unfold readMarks
  rw [if_pos h0]

end Mmg.Io
