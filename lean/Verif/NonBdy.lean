/-
  C96. Every inner edge (2D) or inner face (3D) is given exactly once by the API, whatever the mesh; and where the index is not checked.
-/
import Verif.NonBdyModel
import Mathlib.Data.List.Nodup
import Mathlib.Data.Finset.Card
import Mathlib.Data.Sym.Sym2
import Mathlib.Data.Set.Image
import Mathlib.Tactic.Ring
import Mathlib.Tactic.NormNum

namespace Mmg.NonBdy

variable {m : Nat} {α : Type}

theorem mem_all (C : Cx m) (h : Nat × Fin m) : h ∈ all C ↔ 1 ≤ h.1 ∧ h.1 ≤ C.n ∧ C.ok h.1 = true := by
  unfold all
  simp only [List.mem_flatMap, List.mem_range'_1]
  constructor
  · rintro ⟨k, hk, e⟩
    by_cases o : C.ok k = true
    · rw [if_pos o] at e
      obtain ⟨i, -, rfl⟩ := List.mem_map.1 e
      exact ⟨by omega, by omega, o⟩
    · rw [if_neg o] at e; simp at e
  · rintro ⟨a, b, o⟩
    refine ⟨h.1, by omega, ?_⟩
    rw [if_pos o]
    exact List.mem_map.2 ⟨h.2, List.mem_finRange _, rfl⟩

theorem nodup_all (C : Cx m) : (all C).Nodup := by
  unfold all
  rw [List.nodup_flatMap]
  refine ⟨fun k _ => ?_, ?_⟩
  · split
    · exact (List.nodup_finRange m).map fun a b e => (Prod.mk.inj e).2
    · exact List.nodup_nil
  · refine List.Pairwise.imp ?_ (List.nodup_range' (s := 1) (n := C.n))
    intro a b hab
    show List.Disjoint _ _
    intro x hx hy
    have f : ∀ k, x ∈ (if C.ok k then (List.finRange m).map fun i => (k, i) else []) → x.1 = k := by
      intro k hk
      split at hk
      · obtain ⟨i, -, rfl⟩ := List.mem_map.1 hk; rfl
      · simp at hk
    exact hab ((f a hx).symm.trans (f b hy))

/-- The listed sides in order. -/
def order (C : Cx m) : List (Nat × Fin m) := (all C).filter (listed C)

theorem count_aux (C : Cx m) (l : List (Nat × Fin m)) (c : Nat) :
    l.foldl (fun c h => if listed C h then c + 1 else c) c = c + (l.filter (listed C)).length := by
  induction l generalizing c with
  | nil => rfl
  | cons a t ih =>
    rw [List.foldl_cons, ih]
    by_cases e : listed C a = true
    · simp [e]; omega
    · simp [e]

theorem count_eq (C : Cx m) : count C = (order C).length := by
  unfold count order; rw [count_aux]; omega

theorem fill_aux (C : Cx m) (pay : Nat × Fin m → α) (l : List (Nat × Fin m)) (j : Nat) (c : Nat → α) :
    let r := l.foldl (put C pay) (j, c)
    (∀ x, x < j → r.2 x = c x) ∧
    ∀ (q : Nat) (hq : q < (l.filter (listed C)).length), r.2 (j + q) = pay (l.filter (listed C))[q] := by
  induction l generalizing j c with
  | nil => exact ⟨fun _ _ => rfl, fun q hq => by simp at hq⟩
  | cons a t ih =>
    intro r
    by_cases e : listed C a = true
    · have er : r = t.foldl (put C pay)
          (j + 1, fun x => if x = j then pay a else c x) := by
        show List.foldl (put C pay) (j, c) (a :: t) = _
        rw [List.foldl_cons, put, if_pos e]
      obtain ⟨h1, h2⟩ := ih (j + 1) (fun x => if x = j then pay a else c x)
      rw [← er] at h1 h2
      refine ⟨fun x hx => ?_, fun q hq => ?_⟩
      · rw [h1 x (by omega)]; exact if_neg (by omega)
      · cases q with
        | zero =>
          have := h1 j (by omega)
          simp only [Nat.add_zero, List.filter_cons_of_pos e, List.getElem_cons_zero]
          rw [this]; exact if_pos rfl
        | succ q =>
          have hq' : q < (t.filter (listed C)).length := by
            rw [List.filter_cons_of_pos e, List.length_cons] at hq; omega
          have := h2 q hq'
          simp only [List.filter_cons_of_pos e, List.getElem_cons_succ]
          rw [← this, show j + (q + 1) = j + 1 + q by omega]
    · have er : r = t.foldl (put C pay) (j, c) := by
        show List.foldl (put C pay) (j, c) (a :: t) = _
        rw [List.foldl_cons, put, if_neg e]
      obtain ⟨h1, h2⟩ := ih j c
      rw [← er] at h1 h2
      refine ⟨h1, fun q hq => ?_⟩
      simp only [List.filter_cons_of_neg e] at hq ⊢
      exact h2 q hq

theorem mem_order (C : Cx m) (h : Nat × Fin m) : h ∈ order C ↔ ∃ o, Inner C h o ∧ h.1 < o.1 := by
  unfold order
  rw [List.mem_filter, mem_all]
  unfold listed Inner
  cases e : C.adj h.1 h.2 with
  | none => simp
  | some o =>
    simp only [Bool.and_eq_true, Bool.not_eq_true', Bool.or_eq_false_iff, bne_eq_false_iff_eq, decide_eq_true_eq]
    constructor
    · rintro ⟨⟨a, b, c⟩, ⟨d, f⟩, g⟩; exact ⟨o, ⟨a, b, c, rfl, d, f⟩, g⟩
    · rintro ⟨o', ⟨a, b, c, eo, d, f⟩, g⟩
      cases eo
      exact ⟨⟨a, b, c⟩, ⟨d, f⟩, g⟩

theorem Inner.symm {C : Cx m} (G : Good C) {h o : Nat × Fin m} (i : Inner C h o) : Inner C o h ∧ o.1 ≠ h.1 := by
  obtain ⟨a, b, c, d, e, f⟩ := i
  obtain ⟨p, q, r, s, t⟩ := G.link h.1 h.2 o.1 o.2 a b c d
  exact ⟨⟨p, q, r, t, e.symm, (G.mark h.1 h.2 o.1 o.2 a b c d).trans f⟩, s⟩

/-- What the call may ask of the array: the size in front is that of `max` cells and the unused one (only looked at when assertions are
compiled), or there is no array and nothing in it. -/
def Fits (dbg : Bool) (siz : Nat) (S : Store α) : Prop :=
  match S.arr with
  | none => S.max = 0
  | some T => dbg = true → T.bytes = (if S.max = 0 then 0 else S.max + 1) * siz

theorem number_eq {early dbg : Bool} {siz : Nat} {zero junk : α} {C : Cx m} {pay : Nat × Fin m → α} {S : Store α}
    (hf : Fits dbg siz S) (h0 : early = false ∨ 0 < count C) :
    ∃ T : Arr α, T.bytes = (S.max + count C + 1) * siz ∧ (∀ A, S.arr = some A → ∀ x, 1 ≤ x → x ≤ S.max → T.cell x = A.cell x) ∧
      number early dbg true true siz zero junk C pay S =
        .ret (true, count C, { S with arr := some { T with cell := (fill C pay (S.max + 1) T.cell).2 } }) := by
  have h1 : (early && count C == 0) = false := by
    rcases h0 with h | h
    · simp [h]
    · have : count C ≠ 0 := by omega
      simp [this]
  unfold number
  simp only [h1, Bool.false_eq_true, if_false, Bool.not_true]
  unfold Fits at hf
  cases ea : S.arr with
  | none =>
    rw [ea] at hf
    have hm : S.max = 0 := hf
    refine ⟨⟨(S.max + count C + 1) * siz, fun x => if 0 ≤ x ∧ x < S.max + count C + 1 then zero else junk⟩, rfl,
      fun A h => by simp at h, ?_⟩
    simp [recalloc, hm]
  | some T =>
    rw [ea] at hf
    simp only at hf
    refine ⟨⟨(S.max + count C + 1) * siz, fun x => if (if S.max = 0 then 0 else S.max + 1) ≤ x ∧ x < S.max + count C + 1 then zero
      else T.cell x⟩, rfl, ?_, ?_⟩
    · intro A h x a b
      cases h
      exact if_neg (by rw [if_neg (by omega)]; omega)
    · have : (dbg && T.bytes != (if S.max = 0 then 0 else S.max + 1) * siz) = false := by
        cases dbg with
        | false => rfl
        | true => simp [hf rfl]
      simp only [recalloc, this, Bool.false_eq_true, if_false, Bool.not_true]

theorem get_in {siz : Nat} {S : Store α} {T : Arr α} {nb idx : Nat} (hs : 1 < siz) (e : S.arr = some T)
    (hb : T.bytes = (S.max + nb + 1) * siz) (h2 : idx ≤ nb) :
    get siz S idx = .ret (some (T.cell (S.max + idx))) := by
  have h3 : S.max + nb + 1 ≤ T.bytes := by rw [hb]; exact Nat.le_mul_of_pos_right _ (by omega)
  unfold get
  rw [e]
  simp only
  rw [if_neg (by omega), if_neg (by omega), if_pos]
  · congr 3
  · rw [hb, Nat.mul_div_cancel _ (by omega)]
    constructor <;> omega

/-- **C96.** For every mesh with correct neighbours, if memory is given: the number told is the number of pairs of elements sharing an
inner side (half the inner half-sides); the indices from 1 to that number give one side of each such pair, and nothing else, each pair
once; the boundary entities stay. -/
theorem C96_list {early dbg : Bool} {siz : Nat} {zero junk : α} {C : Cx m} {pay : Nat × Fin m → α} {S : Store α}
    (G : Good C) (hs : 1 < siz) (hf : Fits dbg siz S) (h0 : early = false ∨ 0 < count C) :
    ∃ (nb : Nat) (S' : Store α) (L : List (Nat × Fin m)),
      number early dbg true true siz zero junk C pay S = .ret (true, nb, S') ∧
      L.length = nb ∧ L.Nodup ∧
      (∀ h ∈ L, ∃ o, Inner C h o) ∧
      (∀ h o, Inner C h o → (h ∈ L ∧ o ∉ L) ∨ (o ∈ L ∧ h ∉ L)) ∧
      (∀ (q : Nat) (hq : q < L.length), get siz S' ((q + 1 : Nat) : Int) = .ret (some (pay L[q]))) ∧
      S'.max = S.max ∧
      (∀ A, S.arr = some A → ∃ A', S'.arr = some A' ∧ ∀ x, 1 ≤ x → x ≤ S.max → A'.cell x = A.cell x) := by
  obtain ⟨T, hb, hc, hn⟩ := number_eq (early := early) (zero := zero) (junk := junk) (C := C) (pay := pay) hf h0
  have hfill := fill_aux C pay (all C) (S.max + 1) T.cell
  refine ⟨_, _, order C, hn, (count_eq C).symm, (nodup_all C).filter _, fun h hh => ?_, fun h o i => ?_, fun q hq => ?_, rfl,
    fun A eA => ⟨_, rfl, fun x a b => ?_⟩⟩
  · obtain ⟨o, i, -⟩ := (mem_order C h).1 hh; exact ⟨o, i⟩
  · obtain ⟨i', ne⟩ := i.symm G
    have u : ∀ {a b c : Nat × Fin m}, Inner C a b → Inner C a c → b = c := fun x y => Option.some.inj (x.2.2.2.1.symm.trans y.2.2.2.1)
    by_cases l : h.1 < o.1
    · refine Or.inl ⟨(mem_order C h).2 ⟨o, i, l⟩, fun k => ?_⟩
      obtain ⟨p, ip, lp⟩ := (mem_order C o).1 k
      rw [← u i' ip] at lp; omega
    · refine Or.inr ⟨(mem_order C o).2 ⟨h, i', by omega⟩, fun k => ?_⟩
      obtain ⟨p, ip, lp⟩ := (mem_order C h).1 k
      rw [← u i ip] at lp; omega
  · have := get_in (S := { S with arr := some { T with cell := (fill C pay (S.max + 1) T.cell).2 } }) (nb := count C) (idx := q + 1)
      hs rfl hb (by rw [count_eq]; omega)
    rw [this]
    have w := hfill.2 q hq
    show Out.ret (some ((fill C pay (S.max + 1) T.cell).2 (S.max + (q + 1)))) = _
    rw [show S.max + (q + 1) = S.max + 1 + q by omega]
    exact congrArg (fun z => Out.ret (some z)) w
  · rw [← hc A eA x a b]
    exact hfill.1 x (by omega)

/-- Half the inner half-sides. -/
theorem C96_number {C : Cx m} (G : Good C) (s : Finset (Nat × Fin m)) (hs : ∀ h, h ∈ s ↔ ∃ o, Inner C h o) :
    2 * count C = s.card := by
  classical
  have lo : (s.filter fun h => h ∈ order C) = (order C).toFinset := by
    ext h
    simp only [Finset.mem_filter, List.mem_toFinset, hs]
    exact ⟨fun a => a.2, fun a => ⟨by obtain ⟨o, i, -⟩ := (mem_order C h).1 a; exact ⟨o, i⟩, a⟩⟩
  have c1 : (s.filter fun h => h ∈ order C).card = count C := by
    rw [lo, List.toFinset_card_of_nodup (show (order C).Nodup from (nodup_all C).filter _), count_eq]
  have u : ∀ {a b c : Nat × Fin m}, Inner C a b → Inner C a c → b = c := fun x y => Option.some.inj (x.2.2.2.1.symm.trans y.2.2.2.1)
  have c2 : (s.filter fun h => ¬ h ∈ order C).card = (s.filter fun h => h ∈ order C).card := by
    refine Finset.card_bij (fun h _ => (C.adj h.1 h.2).getD h) ?_ ?_ ?_
    · intro h hh
      rw [Finset.mem_filter, hs] at hh
      obtain ⟨⟨o, i⟩, n⟩ := hh
      obtain ⟨i', ne⟩ := i.symm G
      rw [i.2.2.2.1]
      refine Finset.mem_filter.2 ⟨(hs _).2 ⟨h, i'⟩, (mem_order C o).2 ⟨h, i', ?_⟩⟩
      have : ¬ h.1 < o.1 := fun l => n ((mem_order C h).2 ⟨o, i, l⟩)
      omega
    · intro a ha b hb e
      rw [Finset.mem_filter, hs] at ha hb
      obtain ⟨⟨o, i⟩, -⟩ := ha
      obtain ⟨⟨p, j⟩, -⟩ := hb
      simp only [i.2.2.2.1, j.2.2.2.1, Option.getD_some] at e
      subst e
      exact u (i.symm G).1 (j.symm G).1
    · intro o ho
      rw [Finset.mem_filter, hs] at ho
      obtain ⟨-, n⟩ := ho
      obtain ⟨h, i, l⟩ := (mem_order C o).1 n
      obtain ⟨i', ne⟩ := i.symm G
      refine ⟨h, Finset.mem_filter.2 ⟨(hs _).2 ⟨o, i'⟩, fun k => ?_⟩, by rw [i'.2.2.2.1]; rfl⟩
      obtain ⟨p, ip, lp⟩ := (mem_order C h).1 k
      rw [← u i' ip] at lp; omega
  have := Finset.card_filter_add_card_filter_not (s := s) (fun h => h ∈ order C)
  omega

/-- **C96, in 2D.** If two half-sides have the same ends only when they are the two sides of one edge, every inner edge is given
for exactly one index between 1 and the number told. -/
theorem C96_edges {dbg : Bool} {siz : Nat} {zero junk : Nat × Nat × Int} {M : Mesh2} {S : Store (Nat × Nat × Int)}
    (G : Good M.cx) (hs : 1 < siz) (hf : Fits dbg siz S)
    (hc : ∀ h o h' o', Inner M.cx h o → Inner M.cx h' o' →
      (s((M.pay h).1, (M.pay h).2.1) = s((M.pay h').1, (M.pay h').2.1) ↔ h' = h ∨ h' = o)) :
    ∃ (nb : Nat) (S' : Store (Nat × Nat × Int)),
      number false dbg true true siz zero junk M.cx M.pay S = .ret (true, nb, S') ∧
      (∀ h o, Inner M.cx h o → ∃! q : Nat, 1 ≤ q ∧ q ≤ nb ∧
        ∃ p, get siz S' q = .ret (some p) ∧ s(p.1, p.2.1) = s((M.pay h).1, (M.pay h).2.1)) ∧
      ∀ q : Nat, 1 ≤ q → q ≤ nb → ∃ h o, Inner M.cx h o ∧ get siz S' q = .ret (some (M.pay h)) := by
  obtain ⟨nb, S', L, hn, hl, nd, hL, hx, hg, -, -⟩ :=
    C96_list (early := false) (zero := zero) (junk := junk) (pay := M.pay) G hs hf (Or.inl rfl)
  have get' : ∀ q : Nat, (a : 1 ≤ q) → (b : q ≤ nb) → get siz S' q = .ret (some (M.pay (L[q - 1]'(by omega)))) := by
    intro q a b
    have := hg (q - 1) (by omega)
    rwa [show q - 1 + 1 = q by omega] at this
  refine ⟨nb, S', hn, fun h o i => ?_, fun q a b => ?_⟩
  · obtain ⟨x, hxL, hxo, hx'⟩ : ∃ x, x ∈ L ∧ (x = h ∨ x = o) ∧ ∀ y ∈ L, y = h ∨ y = o → y = x := by
      rcases hx h o i with ⟨p, r⟩ | ⟨p, r⟩
      · exact ⟨h, p, Or.inl rfl, fun y hy e => e.resolve_right fun z => r (z ▸ hy)⟩
      · exact ⟨o, p, Or.inr rfl, fun y hy e => e.resolve_left fun z => r (z ▸ hy)⟩
    obtain ⟨j, hj, ej⟩ := List.getElem_of_mem hxL
    obtain ⟨ox, ix⟩ := hL x hxL
    refine ⟨j + 1, ⟨by omega, by omega, M.pay x, ?_, ((hc h o x ox i ix).2 hxo).symm⟩, ?_⟩
    · rw [get' (j + 1) (by omega) (by omega)]; simp [ej]
    · rintro q ⟨a, b, p, gp, ep⟩
      rw [get' q a b] at gp
      have hp : M.pay (L[q - 1]'(by omega)) = p := Option.some.inj (Out.ret.inj gp)
      have hm : L[q - 1]'(by omega) ∈ L := List.getElem_mem _
      obtain ⟨oq, iq⟩ := hL _ hm
      have e2 := hx' _ hm ((hc h o _ oq i iq).1 (by rw [hp]; exact ep.symm))
      have := (List.Nodup.getElem_inj_iff nd (hi := by omega) (hj := hj)).1 (e2.trans ej.symm)
      omega
  · obtain ⟨o, i⟩ := hL (L[q - 1]'(by omega)) (List.getElem_mem _)
    exact ⟨_, o, i, get' q a b⟩

/-- **C96, in 3D.** The same for inner faces, when there is one at least. -/
theorem C96_faces {dbg : Bool} {siz : Nat} {zero junk : (Fin 3 → Nat) × Int} {M : Mesh3} {S : Store ((Fin 3 → Nat) × Int)}
    (G : Good M.cx) (hs : 1 < siz) (hf : Fits dbg siz S) (hne : ∃ h o, Inner M.cx h o)
    (hc : ∀ h o h' o', Inner M.cx h o → Inner M.cx h' o' →
      (Set.range (M.pay h).1 = Set.range (M.pay h').1 ↔ h' = h ∨ h' = o)) :
    ∃ (nb : Nat) (S' : Store ((Fin 3 → Nat) × Int)),
      number true dbg true true siz zero junk M.cx M.pay S = .ret (true, nb, S') ∧
      (∀ h o, Inner M.cx h o → ∃! q : Nat, 1 ≤ q ∧ q ≤ nb ∧
        ∃ p, get siz S' q = .ret (some p) ∧ Set.range p.1 = Set.range (M.pay h).1) ∧
      ∀ q : Nat, 1 ≤ q → q ≤ nb → ∃ h o, Inner M.cx h o ∧ get siz S' q = .ret (some (M.pay h)) := by
  have hpos : 0 < count M.cx := by
    obtain ⟨h, o, i⟩ := hne
    obtain ⟨i', ne⟩ := i.symm G
    rw [count_eq]
    rcases Nat.lt_or_gt_of_ne ne with l | l
    · exact List.length_pos_of_mem ((mem_order _ o).2 ⟨h, i', l⟩)
    · exact List.length_pos_of_mem ((mem_order _ h).2 ⟨o, i, l⟩)
  obtain ⟨nb, S', L, hn, hl, nd, hL, hx, hg, -, -⟩ :=
    C96_list (early := true) (zero := zero) (junk := junk) (pay := M.pay) G hs hf (Or.inr hpos)
  have get' : ∀ q : Nat, (a : 1 ≤ q) → (b : q ≤ nb) → get siz S' q = .ret (some (M.pay (L[q - 1]'(by omega)))) := by
    intro q a b
    have := hg (q - 1) (by omega)
    rwa [show q - 1 + 1 = q by omega] at this
  refine ⟨nb, S', hn, fun h o i => ?_, fun q a b => ?_⟩
  · obtain ⟨x, hxL, hxo, hx'⟩ : ∃ x, x ∈ L ∧ (x = h ∨ x = o) ∧ ∀ y ∈ L, y = h ∨ y = o → y = x := by
      rcases hx h o i with ⟨p, r⟩ | ⟨p, r⟩
      · exact ⟨h, p, Or.inl rfl, fun y hy e => e.resolve_right fun z => r (z ▸ hy)⟩
      · exact ⟨o, p, Or.inr rfl, fun y hy e => e.resolve_left fun z => r (z ▸ hy)⟩
    obtain ⟨j, hj, ej⟩ := List.getElem_of_mem hxL
    obtain ⟨ox, ix⟩ := hL x hxL
    refine ⟨j + 1, ⟨by omega, by omega, M.pay x, ?_, ((hc h o x ox i ix).2 hxo).symm⟩, ?_⟩
    · rw [get' (j + 1) (by omega) (by omega)]; simp [ej]
    · rintro q ⟨a, b, p, gp, ep⟩
      rw [get' q a b] at gp
      have hp : M.pay (L[q - 1]'(by omega)) = p := Option.some.inj (Out.ret.inj gp)
      have hm : L[q - 1]'(by omega) ∈ L := List.getElem_mem _
      obtain ⟨oq, iq⟩ := hL _ hm
      have e2 := hx' _ hm ((hc h o _ oq i iq).1 (by rw [hp]; exact ep.symm))
      have := (List.Nodup.getElem_inj_iff nd (hi := by omega) (hj := hj)).1 (e2.trans ej.symm)
      omega
  · obtain ⟨o, i⟩ := hL (L[q - 1]'(by omega)) (List.getElem_mem _)
    exact ⟨_, o, i, get' q a b⟩

/-- What is inner in 2D, and what is given for it: the two vertices opposite to the third one. -/
theorem C96_kind2 (M : Mesh2) (h o : Nat × Fin 3) :
    (Inner M.cx h o ↔ 1 ≤ h.1 ∧ h.1 ≤ M.n ∧ M.v h.1 0 ≠ 0 ∧ M.adj h.1 h.2 = some o ∧ M.ref h.1 = M.ref o.1 ∧
      (M.tag h.1 h.2 / 4 % 2 = 0 ∧ M.tag h.1 h.2 / 32 % 2 = 0) ∧ (M.opnbdy = true → M.tag h.1 h.2 = 0)) ∧
    (∀ x, (x = (M.pay h).1 ∨ x = (M.pay h).2.1) ↔ ∃ j, j ≠ h.2 ∧ x = M.v h.1 j) ∧ (M.pay h).2.2 = M.edg h.1 h.2 := by
  refine ⟨?_, ?_, rfl⟩
  · unfold Inner Mesh2.cx
    simp only [bne_iff_ne, Bool.or_eq_false_iff, Bool.and_eq_false_iff, Nat.testBit_eq_decide_div_mod_eq, decide_eq_false_iff_not,
      bne_eq_false_iff_eq]
    cases M.opnbdy <;> simp <;> grind
  · obtain ⟨k, i⟩ := h
    intro x
    simp only [Mesh2.pay]
    constructor
    · rintro (rfl | rfl)
      · exact ⟨i + 1, by revert i; decide, rfl⟩
      · exact ⟨i + 2, by revert i; decide, rfl⟩
    · rintro ⟨j, n, rfl⟩
      have : j = i + 1 ∨ j = i + 2 := by revert i j; decide
      rcases this with rfl | rfl <;> simp

/-- What is inner in 3D, and what is given for it: the three other vertices. -/
theorem C96_kind3 (M : Mesh3) (h o : Nat × Fin 4) :
    (Inner M.cx h o ↔ 1 ≤ h.1 ∧ h.1 ≤ M.n ∧ M.v h.1 0 ≠ 0 ∧ M.adj h.1 h.2 = some o ∧ M.ref h.1 = M.ref o.1 ∧
      (M.opnbdy = true → M.bdy h.1 h.2 = false)) ∧
    Set.range (M.pay h).1 = {x | ∃ j, j ≠ h.2 ∧ x = M.v h.1 j} ∧ (M.pay h).2 = M.fref h.1 h.2 := by
  refine ⟨?_, ?_, rfl⟩
  · unfold Inner Mesh3.cx
    simp only [bne_iff_ne]
    cases M.opnbdy <;> simp
  · obtain ⟨k, i⟩ := h
    ext x
    simp only [Mesh3.pay, Set.mem_range, Set.mem_setOf_eq]
    constructor
    · rintro ⟨j, rfl⟩
      exact ⟨idir i j, by revert i j; decide, rfl⟩
    · rintro ⟨j, n, rfl⟩
      have : ∃ l, idir i l = j := by revert i j; decide
      obtain ⟨l, e⟩ := this
      exact ⟨l, by rw [e]⟩

/-! ### Where the code differs from its documentation -/

/-- The index is compared with a number of bytes: every index above the number told is accepted, up to the number of bytes, and read
outside of the array. -/
theorem C96_index_observed {early dbg : Bool} {siz : Nat} {zero junk : α} {C : Cx m} {pay : Nat × Fin m → α} {S : Store α}
    (hs : 1 < siz) (hf : Fits dbg siz S) (h0 : early = false ∨ 0 < count C) :
    ∃ S', number early dbg true true siz zero junk C pay S = .ret (true, count C, S') ∧
      get siz S' ((count C + 1 : Nat) : Int) = .ub ∧
      ∀ idx : Nat, count C < idx → S.max + idx ≤ (S.max + count C + 1) * siz → get siz S' idx = .ub := by
  obtain ⟨T, hb, -, hn⟩ := number_eq (early := early) (zero := zero) (junk := junk) (C := C) (pay := pay) hf h0
  have key : ∀ idx : Nat, count C < idx → S.max + idx ≤ (S.max + count C + 1) * siz →
      get siz { S with arr := some { T with cell := (fill C pay (S.max + 1) T.cell).2 } } idx = .ub := by
    intro idx a b
    have h3 : (S.max + count C + 1) * 1 < (S.max + count C + 1) * siz := Nat.mul_lt_mul_of_pos_left hs (by omega)
    unfold get
    simp only [hb]
    rw [if_neg (by omega), if_neg (by omega), if_neg]
    rw [Nat.mul_div_cancel _ (by omega)]
    omega
  refine ⟨_, hn, key _ (by omega) ?_, key⟩
  have h3 : (S.max + count C + 1) * 1 < (S.max + count C + 1) * siz := Nat.mul_lt_mul_of_pos_left hs (by omega)
  omega

/-- Without the call that counts, the first index is read outside of the array instead of being refused. -/
theorem C96_uncounted_observed {siz : Nat} {S : Store α} {T : Arr α} (hs : 1 < siz) (e : S.arr = some T)
    (hb : T.bytes = (S.max + 1) * siz) : get siz S 1 = .ub := by
  have h3 : (S.max + 1) * 1 < (S.max + 1) * siz := Nat.mul_lt_mul_of_pos_left hs (by omega)
  unfold get
  rw [e]
  simp only [hb]
  rw [if_neg (by omega), if_neg (by omega), if_neg]
  rw [Nat.mul_div_cancel _ (by omega)]
  omega

/-- Asking the number twice stops the program when assertions are compiled, if there is an inner side. -/
theorem C96_twice_observed {early : Bool} {siz : Nat} {zero junk : α} {C : Cx m} {pay : Nat × Fin m → α} {S : Store α}
    (hs : 1 < siz) (hf : Fits true siz S) (h0 : 0 < count C) :
    ∃ S', number early true true true siz zero junk C pay S = .ret (true, count C, S') ∧
      number early true true true siz zero junk C pay S' = .abort := by
  obtain ⟨T, hb, -, hn⟩ := number_eq (early := early) (zero := zero) (junk := junk) (C := C) (pay := pay) hf (Or.inr h0)
  refine ⟨_, hn, ?_⟩
  have h1 : (early && count C == 0) = false := by
    have : count C ≠ 0 := by omega
    simp [this]
  have ne : T.bytes ≠ (if S.max = 0 then 0 else S.max + 1) * siz := by
    rw [hb]
    intro h
    have := Nat.eq_of_mul_eq_mul_right (by omega) h
    split at this <;> omega
  unfold number
  simp only [h1, Bool.false_eq_true, if_false, Bool.not_true, recalloc, ne, bne_iff_ne, Bool.true_and, ne_eq, not_false_eq_true, if_true]

/-- After the number was asked, the file of the boundary edges (`.poly`) holds the inner ones too. -/
theorem C96_poly_observed {dbg : Bool} {siz : Nat} {zero junk : α} {C : Cx m} {pay : Nat × Fin m → α} {S : Store α} {A : Arr α}
    (hs : 1 < siz) (hf : Fits dbg siz S) (e : S.arr = some A) (hb : A.bytes = (S.max + 1) * siz) :
    (saved siz S).length = S.max ∧
    ∃ S', number false dbg true true siz zero junk C pay S = .ret (true, count C, S') ∧ (saved siz S').length = S.max + count C ∧
      ∀ h ∈ order C, pay h ∈ saved siz S' := by
  constructor
  · unfold saved; rw [e]; simp only [hb]
    rw [Nat.mul_div_cancel _ (by omega)]; simp
  obtain ⟨T, hb', -, hn⟩ := number_eq (early := false) (zero := zero) (junk := junk) (C := C) (pay := pay) hf (Or.inl rfl)
  have hfill := fill_aux C pay (all C) (S.max + 1) T.cell
  refine ⟨_, hn, ?_, fun h hh => ?_⟩
  · unfold saved; simp only [hb']
    rw [Nat.mul_div_cancel _ (by omega)]; simp
  · obtain ⟨j, hj, ej⟩ := List.getElem_of_mem hh
    unfold saved; simp only [hb']
    rw [Nat.mul_div_cancel _ (by omega)]
    refine List.mem_map.2 ⟨S.max + 1 + j, List.mem_range'_1.2 ⟨by omega, ?_⟩, ?_⟩
    · rw [count_eq]; omega
    · have := hfill.2 j hj
      exact this.trans (congrArg pay ej)

/-- When the system gives no memory, the boundary entities are lost: the array is freed although the mesh still tells their number. -/
theorem C96_lost_observed {early dbg : Bool} {siz : Nat} {zero junk : α} {C : Cx m} {pay : Nat × Fin m → α} {S : Store α}
    (hf : Fits dbg siz S) (h0 : early = false ∨ 0 < count C) :
    number early dbg true false siz zero junk C pay S = .ret (false, count C, { S with arr := none }) := by
  have h1 : (early && count C == 0) = false := by
    rcases h0 with h | h
    · simp [h]
    · have : count C ≠ 0 := by omega
      simp [this]
  unfold Fits at hf
  unfold number
  simp only [h1, Bool.false_eq_true, if_false, Bool.not_true]
  cases ea : S.arr with
  | none =>
    rw [ea] at hf
    have hm : S.max = 0 := hf
    simp [recalloc, hm]
  | some T =>
    rw [ea] at hf
    simp only at hf
    have : (dbg && T.bytes != (if S.max = 0 then 0 else S.max + 1) * siz) = false := by
      cases dbg with
      | false => rfl
      | true => simp [hf rfl]
    simp only [recalloc, this, Bool.false_eq_true, if_false, Bool.not_false, if_true]

/-! ### A case: a square cut into four triangles around vertex 5, one of them of another reference -/

def fan : Mesh2 where
  n := 4
  v := fun k i => match k, i with
    | 1, 0 => 5 | 1, 1 => 1 | 1, 2 => 2
    | 2, 0 => 5 | 2, 1 => 2 | 2, 2 => 3
    | 3, 0 => 5 | 3, 1 => 3 | 3, 2 => 4
    | 4, 0 => 5 | 4, 1 => 4 | 4, 2 => 1
    | _, _ => 0
  tag := fun _ _ => 0
  edg := fun _ _ => 0
  ref := fun k => if k = 4 then 2 else 1
  adj := fun k i => match k, i with
    | 1, 1 => some (2, 2) | 1, 2 => some (4, 1)
    | 2, 1 => some (3, 2) | 2, 2 => some (1, 1)
    | 3, 1 => some (4, 2) | 3, 2 => some (2, 1)
    | 4, 1 => some (1, 2) | 4, 2 => some (3, 1)
    | _, _ => none
  opnbdy := false

theorem fan_good : Good fan.cx := by
  have h : ∀ k < 5, ∀ i : Fin 3, ∀ o ∈ fan.adj k i, 1 ≤ o.1 ∧ o.1 ≤ 4 ∧ fan.cx.ok o.1 = true ∧ o.1 ≠ k ∧ fan.adj o.1 o.2 = some (k, i) ∧
      fan.cx.mark o.1 o.2 = fan.cx.mark k i := by decide
  have h' : ∀ k i k' j, k ≤ 4 → fan.adj k i = some (k', j) → _ := fun k i k' j hk e => h k (by omega) i (k', j) e
  exact ⟨fun k i k' j _ hk _ e => by obtain ⟨a, b, c, d, f, -⟩ := h' k i k' j hk e; exact ⟨a, b, c, d, f⟩,
    fun k i k' j _ hk _ e => (h' k i k' j hk e).2.2.2.2.2⟩

/-- Four boundary edges and those of the interface would be there; here one boundary edge is kept, of 16 bytes. -/
def fanS : Store (Nat × Nat × Int) := ⟨1, some ⟨32, fun _ => (1, 2, 7)⟩⟩

example : Good fan.cx ∧ Fits true 16 fanS ∧ count fan.cx = 2 := ⟨fan_good, fun _ => rfl, by decide⟩

/-- The two inner edges 2-5 and 3-5 are given, in this order. -/
example : ∃ S', number false true true true 16 (0, 0, 0) (9, 9, 9) fan.cx fan.pay fanS = .ret (true, 2, S') ∧
    get 16 S' 1 = .ret (some (2, 5, 0)) ∧ get 16 S' 2 = .ret (some (3, 5, 0)) ∧ get 16 S' 3 = .ub ∧ get 16 S' 64 = .ret none :=
  ⟨_, rfl, rfl, rfl, rfl, rfl⟩

/-- The assumption on the ends holds for it. -/
example : ∀ h o h' o', Inner fan.cx h o → Inner fan.cx h' o' →
    (s((fan.pay h).1, (fan.pay h).2.1) = s((fan.pay h').1, (fan.pay h').2.1) ↔ h' = h ∨ h' = o) := by
  rintro ⟨k, i⟩ o ⟨k', i'⟩ o' ⟨a, b, -, c, d, -⟩ ⟨a', b', -, c', d', -⟩
  have key : ∀ k < 5, ∀ k' < 5, ∀ i i' : Fin 3, ∀ o ∈ fan.adj k i, ∀ o' ∈ fan.adj k' i',
      (s((fan.pay (k, i)).1, (fan.pay (k, i)).2.1) = s((fan.pay (k', i')).1, (fan.pay (k', i')).2.1) ↔ (k', i') = (k, i) ∨ (k', i') = o) := by
    decide +kernel
  exact key k (Nat.lt_succ_of_le b) k' (Nat.lt_succ_of_le b') i i' o c o' c'

/-- Two tetrahedra with one face in common. -/
def duo : Mesh3 where
  n := 2
  v := fun k i => match k, i with
    | 1, 0 => 1 | 1, 1 => 2 | 1, 2 => 3 | 1, 3 => 4
    | 2, 0 => 5 | 2, 1 => 2 | 2, 2 => 4 | 2, 3 => 3
    | _, _ => 0
  bdy := fun _ _ => false
  fref := fun _ _ => 0
  ref := fun _ => 1
  adj := fun k i => match k, i with
    | 1, 0 => some (2, 0) | 2, 0 => some (1, 0)
    | _, _ => none
  opnbdy := true

theorem duo_good : Good duo.cx := by
  have h : ∀ k < 3, ∀ i : Fin 4, ∀ o ∈ duo.adj k i, 1 ≤ o.1 ∧ o.1 ≤ 2 ∧ duo.cx.ok o.1 = true ∧ o.1 ≠ k ∧ duo.adj o.1 o.2 = some (k, i) ∧
      duo.cx.mark o.1 o.2 = duo.cx.mark k i := by decide
  have h' : ∀ k i k' j, k ≤ 2 → duo.adj k i = some (k', j) → _ := fun k i k' j hk e => h k (by omega) i (k', j) e
  exact ⟨fun k i k' j _ hk _ e => by obtain ⟨a, b, c, d, f, -⟩ := h' k i k' j hk e; exact ⟨a, b, c, d, f⟩,
    fun k i k' j _ hk _ e => (h' k i k' j hk e).2.2.2.2.2⟩

example : Good duo.cx ∧ Fits true 64 (⟨0, none⟩ : Store ((Fin 3 → Nat) × Int)) ∧ (∃ h o, Inner duo.cx h o) ∧
    ∀ h o h' o', Inner duo.cx h o → Inner duo.cx h' o' → (Set.range (duo.pay h).1 = Set.range (duo.pay h').1 ↔ h' = h ∨ h' = o) := by
  refine ⟨duo_good, rfl, ⟨(1, 0), (2, 0), by decide, by decide, by decide, rfl, rfl, rfl⟩, ?_⟩
  rintro ⟨k, i⟩ o ⟨k', i'⟩ o' ⟨a, b, -, c, d, -⟩ ⟨a', b', -, c', d', -⟩
  have key : ∀ k < 3, ∀ k' < 3, ∀ i i' : Fin 4, ∀ o ∈ duo.adj k i, ∀ o' ∈ duo.adj k' i',
      ((∀ x : Fin 3, ∃ y : Fin 3, (duo.pay (k', i')).1 y = (duo.pay (k, i)).1 x) ∧
        ∀ x : Fin 3, ∃ y : Fin 3, (duo.pay (k, i)).1 y = (duo.pay (k', i')).1 x) ∧ ((k', i') = (k, i) ∨ (k', i') = o) := by
    decide +kernel
  have r := key k (Nat.lt_succ_of_le b) k' (Nat.lt_succ_of_le b') i i' o c o' c'
  refine ⟨fun _ => r.2, fun _ => Set.Subset.antisymm ?_ ?_⟩
  · rintro z ⟨x, rfl⟩; exact r.1.1 x
  · rintro z ⟨x, rfl⟩; exact r.1.2 x

end Mmg.NonBdy
