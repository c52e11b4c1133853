/-
  C98. The command line of the 2D program is read as documented, and where it is not.
-/
import Verif.ArgModel

set_option linter.unusedSimpArgs false

namespace Mmg.Arg

variable {K σ : Type}

/-- How the loop goes on after one turn. -/
def cont (E : Env K σ) (r : List Arg) : Res (St σ × Bool) → Res (St σ)
  | .ok (s, false) => loop E r s
  | .ok (s, true) => loop E r.tail s
  | .fail => .fail
  | .ub => .ub

theorem loop_cons (E : Env K σ) (a : Arg) (r : List Arg) (s : St σ) : loop E (a :: r) s = cont E r (step E a r.head? s) := by
  cases r with
  | nil =>
    simp only [loop, List.head?_nil]
    rcases step E a none s with ⟨s', b⟩ | _ | _
    · cases b <;> rfl
    · rfl
    · rfl
  | cons b r =>
    simp only [loop, List.head?_cons]
    rcases step E a (some b) s with ⟨s', b⟩ | _ | _
    · cases b <;> rfl
    · rfl
    · rfl

/-- What a result of a setter gives. -/
def go (E : Env K σ) (r : List Arg) : Option (St σ) → Res (St σ)
  | some s => loop E r s
  | none => .fail

theorem cont_put0 (E : Env K σ) (r : List Arg) (o : Option σ) (s : St σ) :
    cont E r (put o s false) = go E r (o.map fun q => { s with par := q }) := by cases o <;> rfl

theorem cont_put1 (E : Env K σ) (b : Arg) (r : List Arg) (o : Option σ) (s : St σ) :
    cont E (b :: r) (put o s true) = go E r (o.map fun q => { s with par := q }) := by cases o <;> rfl

theorem cont_opt0 (E : Env K σ) (r : List Arg) (o : Option σ) (s : St σ) (p : DP) (hP : ∀ a ∈ r.head?, num E a = none) :
    cont E r (andThen o s (optNum E p r.head?)) = go E r (o.map fun q => { s with par := q }) := by
  cases o with
  | none => rfl
  | some q =>
    simp only [andThen, optNum]
    cases hr : r.head? with
    | none => rfl
    | some b => simp [hP b (by simp [hr]), cont, go]

theorem cont_opt1 (E : Env K σ) (b : Arg) (r : List Arg) (o : Option σ) (s : St σ) (p : DP) {v : K} (hb : num E b = some v) :
    cont E (b :: r) (andThen o s (optNum E p (some b))) = go E r ((o.bind (E.setD p v)).map fun q => { s with par := q }) := by
  cases o with
  | none => rfl
  | some q =>
    simp only [andThen, optNum, hb, cont_put1]
    rfl

theorem andThen_some (p : σ) (s : St σ) (f : St σ → Res (St σ × Bool)) : andThen (some p) s f = f { s with par := p } := rfl

theorem cont_then (E : Env K σ) (r : List Arg) (o : Option σ) (s : St σ) :
    cont E r (andThen o s fun s => .ok (s, false)) = go E r (o.map fun q => { s with par := q }) := by cases o <;> rfl

theorem item_read {E : Env K σ} {t : List Arg} {P : Option Arg → Prop} {f : St σ → Option (St σ)} (h : Item E t P f) (r : List Arg)
    (hP : P r.head?) (s : St σ) : loop E (t ++ r) s = go E r (f s) := by
  cases h with
  | flag h =>
    rw [List.singleton_append, loop_cons]
    simp only [flags, List.mem_cons, Prod.mk.injEq, List.not_mem_nil, or_false] at h
    rcases h with ⟨rfl, rfl, rfl⟩ | ⟨rfl, rfl, rfl⟩ | ⟨rfl, rfl, rfl⟩ | ⟨rfl, rfl, rfl⟩ | ⟨rfl, rfl, rfl⟩ | ⟨rfl, rfl, rfl⟩ | ⟨rfl, rfl, rfl⟩ |
      ⟨rfl, rfl, rfl⟩ | ⟨rfl, rfl, rfl⟩ | ⟨rfl, rfl, rfl⟩ | ⟨rfl, rfl, rfl⟩ <;> simp [step, hd, andThen_some, cont_put0, cont_then]
  | num h ha =>
    rw [List.cons_append, loop_cons]
    simp only [nums, List.mem_cons, Prod.mk.injEq, List.not_mem_nil, or_false] at h
    rcases h with ⟨rfl, rfl⟩ | ⟨rfl, rfl⟩ | ⟨rfl, rfl⟩ | ⟨rfl, rfl⟩ | ⟨rfl, rfl⟩ | ⟨rfl, rfl⟩ | ⟨rfl, rfl⟩ <;>
      simp [step, hd, needNum, ha, cont_put1]
  | opt0 h =>
    rw [List.singleton_append, loop_cons]
    simp only [opts, List.mem_cons, Prod.mk.injEq, List.not_mem_nil, or_false] at h
    rcases h with ⟨rfl, rfl, rfl⟩ | ⟨rfl, rfl, rfl⟩ | ⟨rfl, rfl, rfl⟩ <;> simp [step, hd] <;> exact cont_opt0 _ _ _ _ _ hP
  | opt1 h ha =>
    rw [List.cons_append, loop_cons]
    simp only [opts, List.mem_cons, Prod.mk.injEq, List.not_mem_nil, or_false] at h
    rcases h with ⟨rfl, rfl, rfl⟩ | ⟨rfl, rfl, rfl⟩ | ⟨rfl, rfl, rfl⟩ <;> simp [step, hd] <;> rw [cont_opt1 _ _ _ _ _ _ ha] <;> simp
  | rmc0 =>
    rw [List.singleton_append, loop_cons]
    simp [step, hd]
    exact cont_opt0 _ _ _ _ _ hP
  | rmc1 ha =>
    rw [List.cons_append, loop_cons]
    simp [step, hd]
    rw [cont_opt1 _ _ _ _ _ _ ha]
    simp
  | dig h ha =>
    rw [List.cons_append, loop_cons]
    simp only [digs, List.mem_cons, Prod.mk.injEq, List.not_mem_nil, or_false] at h
    unfold hd at ha
    rcases h with ⟨rfl, rfl⟩ | ⟨rfl, rfl⟩ | ⟨rfl, rfl⟩ | ⟨rfl, rfl⟩ <;> simp_all [step, hd, needDig, andThen_some, cont_put1]
  | isoref =>
    rw [List.cons_append, loop_cons]
    simp [step, hd, cont_put1]
  | aniso =>
    rw [List.singleton_append, loop_cons]
    simp [step, hd, cont_put0]
  | dflt =>
    rw [List.singleton_append, loop_cons]
    simp [step, hd, go, cont]
  | verbose ha =>
    rename_i a
    rw [List.cons_append, loop_cons]
    have c : hd a = '-' ∨ (hd a).isDigit = true := by tauto
    simp only [step, List.singleton_append, List.head?_cons, if_pos c]
    simp [hd, cont_put1]
  | fin ha =>
    rw [List.cons_append, loop_cons]
    simp [step, hd, ha, cont_put1]
  | fout h ha =>
    rw [List.cons_append, loop_cons]
    rcases h with rfl | rfl <;> simp [step, hd, ha, needFile, go, cont]
  | fsol ha =>
    rw [List.cons_append, loop_cons]
    simp [step, hd, ha, needFile, go, cont]
  | fmet ha =>
    rw [List.cons_append, loop_cons]
    simp [step, hd, ha, needFile, go, cont]
  | fpar ha =>
    rw [List.cons_append, loop_cons]
    simp [step, hd, ha, needFile, go, cont]
  | name ha =>
    rw [List.singleton_append, loop_cons]
    unfold step
    rw [if_pos ha]
    unfold bare
    rcases hi : s.inp with _ | x
    · by_cases hu : E.unset s.par = true
      · simp [hi, hu, cont_put0]
      · simp [hi, hu, go, cont]
    · cases ho : s.out <;> simp [hi, ho, go, cont]

/-- A command line made of documented options and file names, in any order and number, sets what they say, one after the other, and stops
with an error if a setter refuses; an option whose number is left out must not stand before a number. -/
theorem C98_reads {E : Env K σ} {args : List Arg} {f : St σ → Option (St σ)} (h : Line E args f) (s : St σ) :
    loop E args s = match f s with
      | some s' => .ok s'
      | none => .fail := by
  induction h generalizing s with
  | nil => rfl
  | cons h hr hP ih =>
    rename_i t P f r g
    rw [item_read h r hP s]
    show go E r (f s) = match (f s).bind g with
      | some s' => .ok s'
      | none => .fail
    cases hf : f s with
    | none => rfl
    | some s1 => exact ih s1

/-- The whole function on such a line: help asked, or the line read and the names completed. -/
theorem C98_parsar {E : Env K σ} {args : List Arg} {f : St σ → Option (St σ)} (h : Line E args f) (s : St σ) (iv : Int) (nm : Arg) :
    parsar E iv nm args s = if "-val".toList ∈ args ∨ "-?".toList ∈ args ∨ "-h".toList ∈ args then .fail
      else match f s with
        | some s' => finish E iv nm s'
        | none => .fail := by
  have e : (args.any (fun a => a = "-val".toList ∨ a = "-?".toList ∨ a = "-h".toList) = true) ↔
      ("-val".toList ∈ args ∨ "-?".toList ∈ args ∨ "-h".toList ∈ args) := by
    simp only [List.any_eq_true, decide_eq_true_eq]
    constructor
    · rintro ⟨a, m, rfl | rfl | rfl⟩
      · exact .inl m
      · exact .inr (.inl m)
      · exact .inr (.inr m)
    · rintro (m | m | m)
      · exact ⟨_, m, .inl rfl⟩
      · exact ⟨_, m, .inr (.inl rfl)⟩
      · exact ⟨_, m, .inr (.inr rfl)⟩
  unfold parsar
  by_cases c : "-val".toList ∈ args ∨ "-?".toList ∈ args ∨ "-h".toList ∈ args
  · rw [if_pos (e.2 c), if_pos c]
  · rw [if_neg (fun q => c (e.1 q)), if_neg c, C98_reads h s]
    cases f s <;> rfl

/-- Names at the end: without isovalue and motion the metric is the file of `-met`, else that of `-sol`, else the default; with them the
solution is the file of `-sol`, else the default, and the metric only that of `-met`; meshes as given, else asked or default. -/
theorem C98_names {E : Env K σ} {iv : Int} {nm : Arg} {s s' : St σ} (h : finish E iv nm s = .ok s') :
    (E.mode s'.par = false → s'.met = some (s.met.getD (s.sol.getD []))) ∧
    (E.mode s'.par = true → s'.sol = some (s.sol.getD []) ∧ s'.met = s.met) ∧
    s'.inp = some (s.inp.getD nm) ∧ s'.out = some (s.out.getD []) ∧ s'.metOut = some (s.metOut.getD []) ∧ s'.fpar = s.fpar := by
  unfold finish at h
  split at h
  · cases h
  rename_i p _
  obtain ⟨par, inp, out, fp, met, sol, mo⟩ := s
  cases hm : E.mode p
  all_goals
    cases inp <;> cases out <;> cases met <;> cases sol <;> cases mo <;>
      simp only [hm, if_true, reduceCtorEq, if_false, ne_eq, not_true_eq_false, not_false_eq_true, and_true, and_false, true_and, false_and,
        Bool.false_eq_true, Res.ok.injEq] at h <;> subst h <;> simp [hm]

theorem put_ub (o : Option σ) (s : St σ) (b : Bool) : put o s b ≠ .ub := by cases o <;> simp [put]

theorem needNum_ub (E : Env K σ) (p : DP) (n : Option Arg) (s : St σ) : needNum E p n s ≠ .ub := by
  unfold needNum
  repeat' split
  all_goals first | exact put_ub _ _ _ | simp

theorem optNum_ub (E : Env K σ) (p : DP) (n : Option Arg) (s : St σ) : optNum E p n s ≠ .ub := by
  unfold optNum
  repeat' split
  all_goals first | exact put_ub _ _ _ | simp

theorem needDig_ub (E : Env K σ) (p : IP) (n : Option Arg) (s : St σ) : needDig E p n s ≠ .ub := by
  unfold needDig
  repeat' split
  all_goals first | exact put_ub _ _ _ | simp

theorem needFile_ub (n : Option Arg) (f : Arg → St σ) : needFile n f ≠ .ub := by
  unfold needFile
  repeat' split
  all_goals simp

theorem andThen_ub (o : Option σ) (s : St σ) (f : St σ → Res (St σ × Bool)) (h : ∀ s, f s ≠ .ub) : andThen o s f ≠ .ub := by
  cases o
  · simp [andThen]
  · exact h _

theorem bare_ub (E : Env K σ) (a : Arg) (s : St σ) : bare E a s ≠ .ub := by
  unfold bare
  simp only
  repeat' split
  all_goals first | exact put_ub _ _ _ | simp

theorem step_ub (E : Env K σ) (a : Arg) (next : Option Arg) (s : St σ) (e : step E a next s = .ub) :
    next = none ∧ (a = "-isoref".toList ∨ a = "-in".toList) := by
  unfold step at e
  by_cases c : hd a ≠ '-'
  · rw [if_pos c] at e
    exact absurd e (bare_ub _ _ _)
  rw [if_neg c] at e
  split at e
  case h_9 =>
    refine absurd e (andThen_ub _ _ _ fun s => ?_)
    repeat' split
    all_goals first | exact put_ub _ _ _ | exact needDig_ub _ _ _ _ | simp
  case h_6 =>
    split at e
    · rename_i ha
      split at e
      · exact ⟨rfl, .inr ha⟩
      · split at e
        · exact absurd e (put_ub _ _ _)
        · cases e
    · split at e
      · rename_i ha
        split at e
        · exact ⟨rfl, .inl ha⟩
        · exact absurd e (put_ub _ _ _)
      · cases e
  all_goals repeat' split at e
  all_goals first
    | exact absurd e (put_ub _ _ _)
    | exact absurd e (needNum_ub _ _ _ _)
    | exact absurd e (needDig_ub _ _ _ _)
    | exact absurd e (needFile_ub _ _)
    | exact absurd e (andThen_ub _ _ _ fun s => optNum_ub _ _ _ _)
    | cases e

/-- No argument is read that is not there, unless the line ends with `-isoref` or `-in`. -/
theorem C98_safe {E : Env K σ} {args : List Arg} (h1 : args.getLast? ≠ some "-isoref".toList) (h2 : args.getLast? ≠ some "-in".toList)
    (s : St σ) : loop E args s ≠ .ub := by
  induction hn : args.length using Nat.strongRecOn generalizing args s with
  | ind n ih =>
    cases args with
    | nil => simp [loop]
    | cons a r =>
      rw [loop_cons]
      intro e
      cases hs : step E a r.head? s with
      | fail => rw [hs] at e; cases e
      | ub =>
        obtain ⟨hr, ha⟩ := step_ub _ _ _ _ hs
        have : r = [] := by cases r <;> simp_all
        subst this
        rcases ha with rfl | rfl
        · exact h1 rfl
        · exact h2 rfl
      | ok x =>
        obtain ⟨s', b⟩ := x
        rw [hs] at e
        cases r with
        | nil => cases b <;> cases e
        | cons b1 r =>
          rw [List.getLast?_cons_cons] at h1 h2
          cases b with
          | false => exact ih (b1 :: r).length (by simp at hn ⊢; omega) h1 h2 s' rfl e
          | true =>
            cases r with
            | nil => cases e
            | cons b2 r =>
              rw [List.getLast?_cons_cons] at h1 h2
              exact ih (b2 :: r).length (by simp at hn ⊢; omega) h1 h2 s' rfl e

/-! ### What is refused, and what is not -/

/-- C98.  An option without its argument, or with another option or a text that is no number in its place, is refused. -/
theorem C98_argument (E : Env K σ) (a : Arg) (next : Option Arg) (s : St σ)
    (h : (a ∈ ["-f".toList, "-met".toList, "-out".toList, "-o".toList, "-sol".toList] ∧ ∀ b, next = some b → hd b = '-') ∨
      (a = "-in".toList ∧ ∃ b, next = some b ∧ hd b = '-') ∨
      (a ∈ ["-lag".toList, "-m".toList, "-nsd".toList, "-3dMedit".toList] ∧ ∀ b, next = some b → (hd b).isDigit = false) ∨
      (a ∈ nums.map Prod.fst ∧ ∀ b, next = some b → (E.strtof b).2 ≠ [])) : step E a next s = .fail := by
  rcases h with ⟨ha, hb⟩ | ⟨rfl, b, rfl, hb⟩ | ⟨ha, hb⟩ | ⟨ha, hb⟩
  · have key : ∀ f : Arg → St σ, needFile next f = .fail := by
      intro f
      cases next with
      | none => rfl
      | some b => simp [needFile, isFile, hb b rfl]
    simp only [List.mem_cons, List.not_mem_nil, or_false] at ha
    rcases ha with rfl | rfl | rfl | rfl | rfl <;> simp [step, hd, key]
  · simp [step, isFile, hb, hd] at hb ⊢
    simp [hb]
  · have key : ∀ (p : IP) (s : St σ), needDig E p next s = .fail := by
      intro p s
      cases next with
      | none => rfl
      | some b => simp [needDig, hb b rfl]
    simp only [List.mem_cons, List.not_mem_nil, or_false] at ha
    rcases ha with rfl | rfl | rfl | rfl <;> simp [step, hd, key, andThen]
  · have key : ∀ (p : DP), needNum E p next s = .fail := by
      intro p
      cases next with
      | none => rfl
      | some b => simp [needNum, num, hb b rfl]
    simp only [nums, List.map_cons, List.map_nil, List.mem_cons, List.not_mem_nil, or_false] at ha
    rcases ha with rfl | rfl | rfl | rfl | rfl | rfl | rfl <;> simp [step, hd, key]

/-- An argument that begins with `-h` or `-i` and is no option, or with `-` and a letter that begins no option, is refused. -/
theorem C98_refused (E : Env K σ) (a : Arg) (next : Option Arg) (s : St σ) (h0 : hd a = '-')
    (h : hd a.tail = 'h' ∧ a ∉ nums.map Prod.fst ∨ hd a.tail = 'i' ∧ a ≠ "-in".toList ∧ a ≠ "-isoref".toList ∨
      hd a.tail ∉ "aAdfhilmnorsvx3".toList) : step E a next s = .fail := by
  unfold step
  rw [if_neg (by simp [h0])]
  rcases h with ⟨h, n⟩ | ⟨h, n1, n2⟩ | h
  · simp only [nums, List.map_cons, List.map_nil, List.mem_cons, List.not_mem_nil, or_false, not_or] at n
    obtain ⟨n1, n2, n3, n4, n5, n6, n7⟩ := n
    rw [h]
    simp only
    rw [if_neg n2, if_neg n3, if_neg n4, if_neg n5, if_neg n7, if_neg n6]
    simp
  · rw [h]
    simp only
    rw [if_neg n1, if_neg n2]
  · have e : hd a.tail ≠ 'a' ∧ hd a.tail ≠ 'A' ∧ hd a.tail ≠ 'd' ∧ hd a.tail ≠ 'f' ∧ hd a.tail ≠ 'h' ∧ hd a.tail ≠ 'i' ∧ hd a.tail ≠ 'l' ∧
        hd a.tail ≠ 'm' ∧ hd a.tail ≠ 'n' ∧ hd a.tail ≠ 'o' ∧ hd a.tail ≠ 'r' ∧ hd a.tail ≠ 's' ∧ hd a.tail ≠ 'v' ∧ hd a.tail ≠ 'x' ∧
        hd a.tail ≠ '3' := by simpa using h
    generalize hd a.tail = c at e
    split <;> simp_all

/-- All other options that the usage text does not have are accepted without any effect or word: also misspelt ones. -/
theorem C98_unknown_observed (E : Env K σ) (a : Arg) (next : Option Arg) (s : St σ) (h0 : hd a = '-')
    (h : hd a.tail ∈ "aflmnorsx3".toList) (n1 : a ∉ flags.map Prod.fst) (n2 : a ∉ nums.map Prod.fst) (n3 : a ∉ opts.map Prod.fst)
    (n4 : a ∉ digs.map Prod.fst) (n5 : a ∉ ["-rmc".toList, "-out".toList, "-o".toList, "-sol".toList, "-met".toList, "-f".toList]) :
    step E a next s = .ok (s, false) := by
  simp only [flags, nums, opts, digs, List.map_cons, List.map_nil, List.mem_cons, List.not_mem_nil, or_false, not_or] at n1 n2 n3 n4 n5
  unfold step
  rw [if_neg (by simp [h0])]
  have e : hd a.tail = 'a' ∨ hd a.tail = 'f' ∨ hd a.tail = 'l' ∨ hd a.tail = 'm' ∨ hd a.tail = 'n' ∨ hd a.tail = 'o' ∨ hd a.tail = 'r' ∨
      hd a.tail = 's' ∨ hd a.tail = 'x' ∨ hd a.tail = '3' := by simpa using h
  rcases e with e | e | e | e | e | e | e | e | e | e <;> rw [e] <;> simp only [andThen, if_neg, n1, n2, n3, n4, n5, not_false_eq_true, or_self]

/-- The number after `-v` may be left out by the usage text, but the option after it is then lost: it is taken for the number. -/
theorem C98_verbose_observed (E : Env K σ) (b : Arg) (r : List Arg) (s : St σ) (hb : hd b = '-') :
    loop E ("-v".toList :: b :: r) s = (match E.setI .verbose (E.atoi b) s.par with
      | some p => loop E r { s with par := p }
      | none => .fail) ∧ loop E ["-v".toList] s = .fail := by
  refine ⟨?_, by simp [loop, step, hd]⟩
  rw [loop_cons]
  simp only [step, List.head?_cons, hb, true_or, if_true]
  simp only [hd, String.reduceToList, List.headD_cons, ne_eq, not_true_eq_false, if_false, List.tail_cons, cont_put1]
  cases E.setI .verbose (E.atoi b) s.par <;> rfl

/-- `-isoref` and `-in` at the end of the line: a null pointer is read. -/
theorem C98_missing_observed (E : Env K σ) (s : St σ) (iv : Int) (nm : Arg) :
    parsar E iv nm ["-isoref".toList] s = .ub ∧ parsar E iv nm ["-in".toList] s = .ub := by
  constructor <;> simp [parsar, loop, step, hd]

/-- An empty argument is a number if `strtof` leaves nothing of it, as it does of an empty text: the option is set to what it gives then. -/
theorem C98_empty_observed (E : Env K σ) (h : E.strtof [] = (E.zero, [])) (s : St σ) :
    loop E ["-hmin".toList, []] s = (match E.setD .hmin E.zero s.par with
      | some p => .ok { s with par := p }
      | none => .fail) := by
  have hz : num E [] = some E.zero := by simp [num, h]
  have := item_read (.num (n := "-hmin".toList) (p := .hmin) (by decide) hz) [] trivial s
  rw [List.append_nil] at this
  rw [this]
  cases E.setD .hmin E.zero s.par <;> rfl

/-- Everything that begins with `-A` is `-A`, everything that begins with `-d` but `-default` is `-d`. -/
theorem C98_prefix_observed (E : Env K σ) (a : Arg) (next : Option Arg) (s : St σ) :
    step E ('-' :: 'A' :: a) next s = put (E.tensor s.par) s false ∧
    ('-' :: 'd' :: a ≠ "-default".toList → step E ('-' :: 'd' :: a) next s = put (E.setI .debug 1 s.par) s false) := by
  refine ⟨by simp [step, hd], fun h => ?_⟩
  unfold step
  rw [if_neg (by simp [hd])]
  show (if '-' :: 'd' :: a = "-default".toList then Res.ok ({ s with par := E.dflt s.par }, false) else put (E.setI .debug 1 s.par) s false) = _
  rw [if_neg h]

/-! ### An environment -/

/-- Leading digits. -/
def rd : Nat → Arg → Nat × Arg
  | n, [] => (n, [])
  | n, c :: r => if c.isDigit then rd (10 * n + (c.toNat - 48)) r else (n, c :: r)

/-- Whole numbers only; the setters write down what they are asked. -/
def exE : Env Nat (List (IP × Int) × List (DP × Nat)) where
  strtof := rd 0
  zero := 0
  atoi := fun a => if hd a = '-' then - (rd 0 a.tail).1 else (rd 0 a).1
  setI := fun p v s => some (s.1 ++ [(p, v)], s.2)
  setD := fun p v s => some (s.1, s.2 ++ [(p, v)])
  tensor := some
  dflt := id
  mode := fun s => s.1.any (fun x => x.1 = .iso)
  unset := fun s => s.1.all (fun x => x.1 ≠ .verbose)

def exS : St (List (IP × Int) × List (DP × Nat)) := ⟨([], []), none, none, none, none, none, none⟩

/-- Hypothesis of `C98_reads` and `C98_parsar`: a line with options of all kinds. -/
example : ∃ f, Line exE (["-v".toList, "-1".toList, "-hmax".toList, "12".toList, "in.mesh".toList, "-ls".toList, "-nr".toList, "-sol".toList,
    "a.sol".toList, "out.mesh".toList]) f ∧
    f exS = some ⟨([(.verbose, -1), (.iso, 1), (.angle, 0)], [(.hmax, 12)]), some "in.mesh".toList, some "out.mesh".toList, none, none,
      some "a.sol".toList, none⟩ := by
  refine ⟨_, .cons (.verbose (.inr (by decide))) (.cons (.num (p := .hmax) (v := 12) (by decide) (by decide)) (.cons (.name (by decide))
    (.cons (.opt0 (i := .iso) (p := .ls) (by decide)) (.cons (.flag (p := .angle) (v := 0) (by decide)) (.cons (.fsol (by decide))
    (.cons (.name (by decide)) .nil trivial) trivial) trivial) ?_) trivial) trivial) trivial, by decide⟩
  intro a ha
  have : a = "-nr".toList := by simpa using ha.symm
  subst this
  decide

/-- A misspelt option is passed over and its number becomes the name of the mesh; the option after `-v` is lost and its number too. -/
example : loop exE ["-nsb".toList, "3".toList, "in.mesh".toList] exS =
      .ok { exS with par := ([(.verbose, 5)], []), inp := some "3".toList, out := some "in.mesh".toList } ∧
    loop exE ["-v".toList, "-hmax".toList, "12".toList] exS = .ok { exS with par := ([(.verbose, 0)], []), inp := some "12".toList } :=
  ⟨rfl, rfl⟩

/-- Hypotheses of the other theorems. -/
example : exE.strtof [] = (exE.zero, []) ∧ hd "-hmax".toList = '-' ∧ "-nsb".toList ∉ flags.map Prod.fst ∧
    hd ("-nsb".toList).tail ∈ "aflmnorsx3".toList ∧ (hd ("-hmun".toList).tail = 'h' ∧ "-hmun".toList ∉ nums.map Prod.fst) ∧
    (["-in".toList, "a".toList].getLast? ≠ some "-isoref".toList ∧ ["-in".toList, "a".toList].getLast? ≠ some "-in".toList) := by
  decide

example : finish exE 3 [] { exS with sol := some "m.sol".toList } =
    .ok ⟨([(.verbose, 3)], []), some [], some [], none, some "m.sol".toList, none, some []⟩ := rfl

end Mmg.Arg
