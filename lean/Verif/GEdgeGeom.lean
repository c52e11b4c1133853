/- C90: what `MMG5_hGeom` gives to the triangles. -/
import Verif.GEdge

namespace Mmg.GEdge

open Mmg.Hash (Outcome Used ckey)
open Mmg.Orient (has mgREF mgGEO mgREQ mgNOM mgNOSURF mgPARBDY mgPARBDYBDY has_or has_zero has_nosurf)

/-- The two ends of a side. -/
def key (E : Env) (x : Nat × Fin 3) : Sym2 Nat := s(E.v x.1 (x.2 + 1), E.v x.1 (x.2 + 2))

/-- The first edge of the user with these ends. -/
def given (es : List Edge) (e : Sym2 Nat) : Option Edge := es.find? fun d => s(d.a, d.b) = e

/-- The sides that are treated: sides of triangles, but those on the border of the part of a processor that are not on the boundary of
the whole mesh too. -/
def Side (E : Env) (tag : Nat → Fin 3 → BitVec 16) (x : Nat × Fin 3) : Prop :=
  1 ≤ x.1 ∧ x.1 ≤ E.nt ∧ ¬ (has (tag x.1 x.2) mgPARBDY = true ∧ has (tag x.1 x.2) mgPARBDYBDY = false)

theorem side_iff {E : Env} {tag : Nat → Fin 3 → BitVec 16} {x : Nat × Fin 3} :
    Side E tag x ↔ 1 ≤ x.1 ∧ x.1 ≤ E.nt ∧ skip (tag x.1 x.2) = false := by
  unfold Side skip
  cases has (tag x.1 x.2) mgPARBDY <;> cases has (tag x.1 x.2) mgPARBDYBDY <;> simp

theorem mem_sides {E : Env} {x : Nat × Fin 3} : x ∈ sides E ↔ 1 ≤ x.1 ∧ x.1 ≤ E.nt := by
  unfold sides
  rw [List.mem_flatMap]
  constructor
  · rintro ⟨k, hk, hx⟩
    rw [List.mem_range'_1] at hk
    simp only [List.mem_cons, List.not_mem_nil, or_false] at hx
    rcases hx with rfl | rfl | rfl <;> simp only <;> omega
  · rintro ⟨h1, h2⟩
    refine ⟨x.1, by rw [List.mem_range'_1]; omega, ?_⟩
    obtain ⟨k, i⟩ := x
    fin_cases i <;> simp

theorem nodup_sides (E : Env) : (sides E).Nodup := by
  unfold sides
  rw [List.nodup_flatMap]
  refine ⟨fun k _ => by simp, ?_⟩
  have : (List.range' 1 E.nt).Nodup := List.nodup_range'
  apply this.imp
  intro a b hab
  simp only [Function.onFun, List.disjoint_left]
  intro x hx hy
  simp only [List.mem_cons, List.not_mem_nil, or_false] at hx hy
  rcases hx with rfl | rfl | rfl <;> simp_all

theorem set2_self {α : Type} (f : Nat → Fin 3 → α) (x : Nat × Fin 3) (c : α) : set2 f x c x.1 x.2 = c := by
  simp [set2]

theorem set2_ne {α : Type} (f : Nat → Fin 3 → α) {x y : Nat × Fin 3} (c : α) (h : y ≠ x) : set2 f x c y.1 y.2 = f y.1 y.2 := by
  unfold set2
  rw [if_neg]
  rintro ⟨h1, h2⟩
  exact h (Prod.ext h1 h2)

theorem has_sub_nosurf {x b : BitVec 16} (h : has (x &&& ~~~mgNOSURF) b = true) : has x b = true := by
  unfold has at *
  simp only [bne_iff_ne, ne_eq] at *
  intro q
  apply h
  have : x &&& ~~~mgNOSURF &&& b = (x &&& b) &&& ~~~mgNOSURF := by
    rw [BitVec.and_assoc, BitVec.and_comm (~~~mgNOSURF) b, ← BitVec.and_assoc]
  rw [this, q]; simp

variable {E : Env}

theorem sideA_facts {s : St} {m : Map} (I : GInv s.h m) {g : Option Nat} (hg : ∀ n, g = some n → 1 ≤ n) {x : Nat × Fin 3}
    (hx : ∀ i, E.v x.1 i ≠ 0) (ns : skip (s.tag x.1 x.2) = false) :
    (sideA E g s x = .fail ∧ g = none) ∨
    ∃ s' m2 r' t1, sideA E g s x = .ok s' ∧ GInv s'.h m2 ∧ (∀ y, y ≠ key E x → m2 y = m y) ∧
      s'.edg = set2 s.edg x r' ∧ s'.tag = set2 s.tag x t1 ∧
      ((m2 (key E x) = none ∧ m (key E x) = none ∧ has (s.tag x.1 x.2) mgNOM = false ∧ r' = 0 ∧ t1 = s.tag x.1 x.2) ∨
       ∃ T, m2 (key E x) = some (r', T) ∧ ((m (key E x)).isSome = true ∨ has (s.tag x.1 x.2) mgNOM = true) ∧
        (∀ b, has T b = true → has (s.tag x.1 x.2) b = true ∨ ∃ v, m (key E x) = some v ∧ has v.2 b = true) ∧
        (∀ v, m (key E x) = some v → (∀ b, has v.2 b = true → has t1 b = true) ∧
          ((has (s.tag x.1 x.2) mgNOM = false ∨ s.edg x.1 x.2 = 0) → r' = v.1)) ∧
        (∀ b, has t1 b = true → has T b = true) ∧
        (∀ b, (E.nosurf = false ∨ ~~~mgNOSURF &&& b = b) → has (s.tag x.1 x.2) b = true → has t1 b = true)) := by
  set t := s.tag x.1 x.2 with ht
  set r := s.edg x.1 x.2 with hr
  have N : (nomSide E g s x = .fail ∧ g = none) ∨ ∃ h1 m1, nomSide E g s x = .ok h1 ∧ GInv h1 m1 ∧
      (∀ y, y ≠ key E x → m1 y = m y) ∧
      ((m1 (key E x) = none ∧ m (key E x) = none ∧ has t mgNOM = false) ∨
       ∃ w, m1 (key E x) = some w ∧ ((m (key E x)).isSome = true ∨ has t mgNOM = true) ∧
        (∀ b, has w.2 b = true → has t b = true ∨ ∃ v, m (key E x) = some v ∧ has v.2 b = true) ∧
        (∀ v, m (key E x) = some v → (∀ b, has v.2 b = true → has w.2 b = true) ∧
          ((has t mgNOM = false ∨ r = 0) → w.1 = v.1))) := by
    unfold nomSide
    simp only
    rw [← ht, ← hr]
    by_cases hn : has t mgNOM = true
    · rw [if_pos hn]
      obtain ⟨h', e, J⟩ := I.hTag_spec (E.v x.1 (x.2 + 1)) (E.v x.1 (x.2 + 2)) r t
      cases hm : m s(E.v x.1 (x.2 + 1), E.v x.1 (x.2 + 2)) with
      | some v =>
        rw [hm] at e
        rw [e]
        right
        refine ⟨h', _, rfl, J, fun y hy => if_neg hy, Or.inr ?_⟩
        refine ⟨(if r ≠ 0 then r else v.1, v.2 ||| t), ?_, Or.inr hn, ?_, ?_⟩
        · unfold tagM key; rw [if_pos rfl, hm]; rfl
        · intro b hb
          rw [has_or, Bool.or_eq_true] at hb
          rcases hb with hb | hb
          · exact Or.inr ⟨v, hm, hb⟩
          · exact Or.inl hb
        · intro v' hv'
          have : v' = v := by
            have e' : m (key E x) = some v := hm
            rw [e'] at hv'; exact (Option.some.inj hv').symm
          subst this
          refine ⟨fun b hb => by rw [has_or, hb]; rfl, ?_⟩
          rintro (q | q)
          · rw [hn] at q; cases q
          · simp [q]
      | none =>
        rw [hm] at e
        rw [e]
        simp only [Option.isSome_none]
        rcases I.hEdge_spec (hx (x.2 + 1)) (hx (x.2 + 2)) r t hg with ⟨h2, e2, K⟩ | q
        · right
          refine ⟨h2, _, e2, K, fun y hy => if_neg hy, Or.inr ⟨(r, t), ?_, Or.inr hn, fun b hb => Or.inl hb, ?_⟩⟩
          · unfold addM key; rw [if_pos rfl, hm]; rfl
          · intro v hv
            have e' : m (key E x) = none := hm
            rw [e'] at hv; cases hv
        · exact Or.inl q
    · rw [if_neg hn]
      right
      refine ⟨s.h, m, rfl, I, fun _ _ => rfl, ?_⟩
      cases hm : m (key E x) with
      | none => exact Or.inl ⟨rfl, rfl, by simpa using hn⟩
      | some v =>
        right
        refine ⟨v, rfl, Or.inl rfl, fun b hb => Or.inr ⟨v, rfl, hb⟩, ?_⟩
        intro v' hv'
        rw [Option.some.injEq] at hv'
        subst hv'
        exact ⟨fun _ h => h, fun _ => rfl⟩
  unfold sideA
  simp only
  rw [if_neg (by rw [ns]; simp)]
  rcases N with ⟨e, q⟩ | ⟨h1, m1, e, J, hoth, hcase⟩
  · left; rw [e]; exact ⟨rfl, q⟩
  · right
    rw [e]
    simp only
    rw [J.hGet_spec]
    simp only
    rw [← ht]
    rcases hcase with ⟨a1, a2, a3⟩ | ⟨w, a1, a2, a3, a4⟩
    · have a1' : m1 s(E.v x.1 (x.2 + 1), E.v x.1 (x.2 + 2)) = none := a1
      have et : ((if (E.nosurf && has (0 : BitVec 16) mgREQ) = true then t &&& ~~~mgNOSURF else t) ||| (0 : BitVec 16)) = t := by
        have : has (0 : BitVec 16) mgREQ = false := by decide
        rw [this]; simp
      rw [a1']
      simp only [Option.getD_none]
      rw [et]
      obtain ⟨h2, e2, K⟩ := J.hTag_spec (E.v x.1 (x.2 + 1)) (E.v x.1 (x.2 + 2)) 0 t
      rw [e2]
      refine ⟨_, _, 0, t, rfl, K, ?_, rfl, rfl, Or.inl ⟨?_, a2, a3, rfl, rfl⟩⟩
      · intro y hy
        rw [← hoth y hy]; exact if_neg hy
      · unfold tagM key; rw [if_pos rfl, a1']; rfl
    · have a1' : m1 s(E.v x.1 (x.2 + 1), E.v x.1 (x.2 + 2)) = some w := a1
      rw [a1']
      simp only [Option.getD_some]
      set t1 : BitVec 16 := (if (E.nosurf && has w.2 mgREQ) = true then t &&& ~~~mgNOSURF else t) ||| w.2 with ht1
      obtain ⟨h2, e2, K⟩ := J.hTag_spec (E.v x.1 (x.2 + 1)) (E.v x.1 (x.2 + 2)) w.1 t1
      rw [e2]
      have hw1 : ∀ b, has w.2 b = true → has t1 b = true := by
        intro b hb; rw [ht1, has_or, hb]; simp
      refine ⟨_, _, w.1, t1, rfl, K, ?_, rfl, rfl, Or.inr ⟨w.2 ||| t1, ?_, a2, ?_, ?_, ?_, ?_⟩⟩
      · intro y hy
        rw [← hoth y hy]; exact if_neg hy
      · unfold tagM key; rw [if_pos rfl, a1']
        simp
      · intro b hb
        rw [has_or, Bool.or_eq_true] at hb
        have : has t b = true ∨ has w.2 b = true := by
          rcases hb with hb | hb
          · exact Or.inr hb
          · rw [ht1, has_or, Bool.or_eq_true] at hb
            rcases hb with hb | hb
            · left
              split at hb
              · exact has_sub_nosurf hb
              · exact hb
            · exact Or.inr hb
        rcases this with h | h
        · exact Or.inl h
        · exact a3 b h
      · intro v hv
        exact ⟨fun b hb => hw1 b ((a4 v hv).1 b hb), (a4 v hv).2⟩
      · intro b hb; rw [has_or, hb]; simp
      · intro b hb hq
        rw [ht1, has_or, Bool.or_eq_true]
        left
        split
        · next c =>
          rcases hb with hb | hb
          · rw [hb] at c; simp at c
          · rw [has_nosurf hb]; exact hq
        · exact hq

/-- On this edge there is a non-manifold side, among `P`, with a reference of its own. -/
def NomRef (E : Env) (edg0 : Nat → Fin 3 → Int) (tag0 : Nat → Fin 3 → BitVec 16) (P : List (Nat × Fin 3)) (e : Sym2 Nat) : Prop :=
  ∃ y ∈ P, skip (tag0 y.1 y.2) = false ∧ key E y = e ∧ has (tag0 y.1 y.2) mgNOM = true ∧ edg0 y.1 y.2 ≠ 0

/-- On this edge there is a non-manifold side. -/
def Nom (E : Env) (tag0 : Nat → Fin 3 → BitVec 16) (P : List (Nat × Fin 3)) (e : Sym2 Nat) : Prop :=
  ∃ y ∈ P, skip (tag0 y.1 y.2) = false ∧ key E y = e ∧ has (tag0 y.1 y.2) mgNOM = true

structure InvA (E : Env) (es : List Edge) (edg0 : Nat → Fin 3 → Int) (tag0 : Nat → Fin 3 → BitVec 16) (P : List (Nat × Fin 3))
    (s : St) (m : Map) : Prop where
  g : GInv s.h m
  out : ∀ x : Nat × Fin 3, x ∉ P → s.edg x.1 x.2 = edg0 x.1 x.2 ∧ s.tag x.1 x.2 = tag0 x.1 x.2
  skp : ∀ x : Nat × Fin 3, skip (tag0 x.1 x.2) = true → s.edg x.1 x.2 = edg0 x.1 x.2 ∧ s.tag x.1 x.2 = tag0 x.1 x.2
  dom : ∀ e, (m e).isSome = true ↔ (given es e).isSome = true ∨ Nom E tag0 P e
  keep : ∀ e v d, m e = some v → given es e = some d → ∀ b, has d.tag b = true → has v.2 b = true
  ref : ∀ e v d, m e = some v → given es e = some d → ¬ NomRef E edg0 tag0 P e → v.1 = d.ref
  src : ∀ e v b, m e = some v → has v.2 b = true → (∃ d, given es e = some d ∧ has d.tag b = true) ∨
    ∃ y ∈ P, skip (tag0 y.1 y.2) = false ∧ key E y = e ∧ has (tag0 y.1 y.2) b = true
  sideTag : ∀ x ∈ P, skip (tag0 x.1 x.2) = false → ∀ d, given es (key E x) = some d → ∀ b, has d.tag b = true → has (s.tag x.1 x.2) b = true
  sideRef : ∀ x ∈ P, skip (tag0 x.1 x.2) = false → ∀ d, given es (key E x) = some d → ¬ NomRef E edg0 tag0 P (key E x) →
    s.edg x.1 x.2 = d.ref
  free : ∀ x ∈ P, skip (tag0 x.1 x.2) = false → given es (key E x) = none → ¬ Nom E tag0 P (key E x) →
    s.edg x.1 x.2 = 0 ∧ s.tag x.1 x.2 = tag0 x.1 x.2
  own : ∀ x ∈ P, ∀ b, (E.nosurf = false ∨ ~~~mgNOSURF &&& b = b) → has (tag0 x.1 x.2) b = true → has (s.tag x.1 x.2) b = true
  orig : ∀ x ∈ P, skip (tag0 x.1 x.2) = false → ∀ b, has (s.tag x.1 x.2) b = true → has (tag0 x.1 x.2) b = true ∨
    (∃ d, given es (key E x) = some d ∧ has d.tag b = true) ∨
    ∃ y ∈ P, skip (tag0 y.1 y.2) = false ∧ key E y = key E x ∧ has (tag0 y.1 y.2) b = true
  sup : ∀ x ∈ P, skip (tag0 x.1 x.2) = false → (given es (key E x)).isSome = true → ∀ v, m (key E x) = some v →
    ∀ b, has (s.tag x.1 x.2) b = true → has v.2 b = true

variable {es : List Edge} {edg0 : Nat → Fin 3 → Int} {tag0 : Nat → Fin 3 → BitVec 16} {P : List (Nat × Fin 3)} {s : St} {m : Map}

theorem Nom.mono {x} (h : Nom E tag0 P e) : Nom E tag0 (P ++ [x]) e := by
  obtain ⟨y, hy, q⟩ := h
  exact ⟨y, by simp [hy], q⟩

theorem NomRef.mono {x} (h : NomRef E edg0 tag0 P e) : NomRef E edg0 tag0 (P ++ [x]) e := by
  obtain ⟨y, hy, q⟩ := h
  exact ⟨y, by simp [hy], q⟩

theorem InvA.step (I : InvA E es edg0 tag0 P s m) {g : Option Nat} (hg : ∀ n, g = some n → 1 ≤ n) {x : Nat × Fin 3}
    (hx : ∀ i, E.v x.1 i ≠ 0) (hP : x ∉ P) :
    (sideA E g s x = .fail ∧ g = none) ∨ ∃ s' m', sideA E g s x = .ok s' ∧ InvA E es edg0 tag0 (P ++ [x]) s' m' := by
  have hxo := I.out x hP
  by_cases ns : skip (tag0 x.1 x.2) = true
  · right
    refine ⟨s, m, ?_, ?_⟩
    · unfold sideA
      simp only
      rw [hxo.2, if_pos ns]
    · have nomE : ∀ e, Nom E tag0 (P ++ [x]) e ↔ Nom E tag0 P e := by
        intro e
        refine ⟨?_, Nom.mono⟩
        rintro ⟨y, hy, h1, h2⟩
        rw [List.mem_append, List.mem_singleton] at hy
        rcases hy with hy | rfl
        · exact ⟨y, hy, h1, h2⟩
        · rw [ns] at h1; cases h1
      have nomRE : ∀ e, NomRef E edg0 tag0 (P ++ [x]) e ↔ NomRef E edg0 tag0 P e := by
        intro e
        refine ⟨?_, NomRef.mono⟩
        rintro ⟨y, hy, h1, h2⟩
        rw [List.mem_append, List.mem_singleton] at hy
        rcases hy with hy | rfl
        · exact ⟨y, hy, h1, h2⟩
        · rw [ns] at h1; cases h1
      have mem : ∀ y, y ∈ P ++ [x] → skip (tag0 y.1 y.2) = false → y ∈ P := by
        intro y hy hs
        rw [List.mem_append, List.mem_singleton] at hy
        rcases hy with hy | rfl
        · exact hy
        · rw [ns] at hs; cases hs
      refine ⟨I.g, fun y hy => I.out y (fun q => hy (by simp [q])), I.skp, ?_, I.keep, ?_, ?_, ?_, ?_, ?_, ?_, ?_, ?_⟩
      · intro e; rw [nomE]; exact I.dom e
      · intro e v d h1 h2 h3; rw [nomRE] at h3; exact I.ref e v d h1 h2 h3
      · intro e v b h1 h2
        rcases I.src e v b h1 h2 with q | ⟨y, hy, q⟩
        · exact Or.inl q
        · exact Or.inr ⟨y, by simp [hy], q⟩
      · intro y hy hs; exact I.sideTag y (mem y hy hs) hs
      · intro y hy hs d h1 h2; rw [nomRE] at h2; exact I.sideRef y (mem y hy hs) hs d h1 h2
      · intro y hy hs h1 h2; rw [nomE] at h2; exact I.free y (mem y hy hs) hs h1 h2
      · intro y hy b h1 h2
        by_cases hs : skip (tag0 y.1 y.2) = true
        · rw [(I.skp y hs).2]; exact h2
        · exact I.own y (mem y hy (by simpa using hs)) b h1 h2
      · intro y hy hs b hb
        rcases I.orig y (mem y hy hs) hs b hb with q | q | ⟨z, hz, q⟩
        · exact Or.inl q
        · exact Or.inr (Or.inl q)
        · exact Or.inr (Or.inr ⟨z, by simp [hz], q⟩)
      · intro y hy hs; exact I.sup y (mem y hy hs) hs
  · have ns' : skip (tag0 x.1 x.2) = false := by simpa using ns
    rcases sideA_facts I.g hg hx (by rw [hxo.2]; exact ns') with q | ⟨s', m2, r', t1, e, J, hoth, he, ht, hc⟩
    · exact Or.inl q
    · right
      rw [hxo.1, hxo.2] at hc
      refine ⟨s', m2, e, ?_⟩
      have tx : s'.tag x.1 x.2 = t1 := by rw [ht, set2_self]
      have ex : s'.edg x.1 x.2 = r' := by rw [he, set2_self]
      have ty : ∀ y, y ≠ x → s'.tag y.1 y.2 = s.tag y.1 y.2 := fun y hy => by rw [ht, set2_ne _ _ hy]
      have ey : ∀ y, y ≠ x → s'.edg y.1 y.2 = s.edg y.1 y.2 := fun y hy => by rw [he, set2_ne _ _ hy]
      have mem : ∀ y, y ∈ P ++ [x] → y ≠ x → y ∈ P := by
        intro y hy hn
        rw [List.mem_append, List.mem_singleton] at hy
        exact hy.resolve_right hn
      have memne : ∀ y, y ∈ P → y ≠ x := fun y hy q => hP (q ▸ hy)
      -- given edges are in the table
      have inT : ∀ e, (given es e).isSome = true → (m e).isSome = true := fun e h => (I.dom e).2 (Or.inl h)
      have upTag : ∀ e v v', m e = some v → m2 e = some v' → ∀ b, has v.2 b = true → has v'.2 b = true := by
        intro e v v' h1 h2 b hb
        by_cases q : e = key E x
        · subst q
          rcases hc with ⟨c1, c2, _⟩ | ⟨T, c1, c2, c3, c4, c5, c6⟩
          · rw [c1] at h2; cases h2
          · rw [c1] at h2
            cases h2
            exact c5 b ((c4 v h1).1 b hb)
        · rw [hoth e q, h1] at h2; cases h2; exact hb
      have back : ∀ e v', m2 e = some v' → (given es e).isSome = true → ∃ v, m e = some v := by
        intro e v' _ h2
        exact Option.isSome_iff_exists.1 (inT e h2)
      have upRef : ∀ e v v', m e = some v → m2 e = some v' → ¬ NomRef E edg0 tag0 (P ++ [x]) e → v'.1 = v.1 := by
        intro e v v' h1 h2 hn
        by_cases q : e = key E x
        · subst q
          rcases hc with ⟨c1, c2, _⟩ | ⟨T, c1, c2, c3, c4, c5, c6⟩
          · rw [c1] at h2; cases h2
          · rw [c1] at h2
            cases h2
            apply (c4 v h1).2
            by_contra c
            rw [not_or] at c
            exact hn ⟨x, by simp, ns', rfl, by simpa using c.1, c.2⟩
        · rw [hoth e q, h1] at h2; cases h2; rfl
      have upSrc : ∀ e v' b, m2 e = some v' → has v'.2 b = true → (∃ d, given es e = some d ∧ has d.tag b = true) ∨
          ∃ y ∈ P ++ [x], skip (tag0 y.1 y.2) = false ∧ key E y = e ∧ has (tag0 y.1 y.2) b = true := by
        intro e v' b h1 hb
        have old : ∀ v, m e = some v → has v.2 b = true → (∃ d, given es e = some d ∧ has d.tag b = true) ∨
            ∃ y ∈ P ++ [x], skip (tag0 y.1 y.2) = false ∧ key E y = e ∧ has (tag0 y.1 y.2) b = true := by
          intro v h h'
          rcases I.src e v b h h' with q | ⟨y, hy, q⟩
          · exact Or.inl q
          · exact Or.inr ⟨y, by simp [hy], q⟩
        by_cases q : e = key E x
        · subst q
          rcases hc with ⟨c1, c2, _⟩ | ⟨T, c1, c2, c3, c4, c5, c6⟩
          · rw [c1] at h1; cases h1
          · rw [c1] at h1
            cases h1
            rcases c3 b hb with h | ⟨v, h, h'⟩
            · exact Or.inr ⟨x, by simp, ns', rfl, h⟩
            · exact old v h h'
        · rw [hoth e q] at h1
          exact old v' h1 hb
      refine ⟨J, ?_, ?_, ?_, ?_, ?_, upSrc, ?_, ?_, ?_, ?_, ?_, ?_⟩
      · intro y hy
        have hne : y ≠ x := fun q => hy (by simp [q])
        rw [ty y hne, ey y hne]
        exact I.out y fun q => hy (by simp [q])
      · intro y hy
        have hne : y ≠ x := fun q => by rw [q, ns'] at hy; cases hy
        rw [ty y hne, ey y hne]
        exact I.skp y hy
      · intro e
        by_cases q : e = key E x
        · subst q
          rcases hc with ⟨c1, c2, c3, _⟩ | ⟨T, c1, c2, _⟩
          · rw [c1]
            have := I.dom (key E x)
            rw [c2] at this
            simp only [Option.isSome_none, Bool.false_eq_true, false_iff, not_or] at this ⊢
            refine ⟨this.1, ?_⟩
            rintro ⟨y, hy, h1, h2, h3⟩
            by_cases hyx : y = x
            · rw [hyx, c3] at h3; cases h3
            · exact this.2 ⟨y, mem y hy hyx, h1, h2, h3⟩
          · rw [c1]
            simp only [Option.isSome_some, true_iff]
            rcases c2 with c2 | c2
            · rcases (I.dom _).1 c2 with h | h
              · exact Or.inl h
              · exact Or.inr h.mono
            · exact Or.inr ⟨x, by simp, ns', rfl, c2⟩
        · rw [hoth e q, I.dom e]
          constructor
          · rintro (h | h)
            · exact Or.inl h
            · exact Or.inr h.mono
          · rintro (h | ⟨y, hy, h1, h2, h3⟩)
            · exact Or.inl h
            · refine Or.inr ⟨y, mem y hy ?_, h1, h2, h3⟩
              rintro rfl
              exact q h2.symm
      · intro e v' d h1 h2 b hb
        obtain ⟨v, hv⟩ := back e v' h1 (by rw [h2]; rfl)
        exact upTag e v v' hv h1 b (I.keep e v d hv h2 b hb)
      · intro e v' d h1 h2 h3
        obtain ⟨v, hv⟩ := back e v' h1 (by rw [h2]; rfl)
        rw [upRef e v v' hv h1 h3]
        exact I.ref e v d hv h2 fun q => h3 q.mono
      · intro y hy hs d h1 b hb
        by_cases hyx : y = x
        · subst hyx
          rw [tx]
          obtain ⟨v, hv⟩ := Option.isSome_iff_exists.1 (inT _ (by rw [h1]; rfl))
          rcases hc with ⟨c1, c2, _⟩ | ⟨T, c1, c2, c3, c4, c5, c6⟩
          · rw [c2] at hv; cases hv
          · exact (c4 v hv).1 b (I.keep _ v d hv h1 b hb)
        · rw [ty y hyx]
          exact I.sideTag y (mem y hy hyx) hs d h1 b hb
      · intro y hy hs d h1 h2
        by_cases hyx : y = x
        · subst hyx
          rw [ex]
          obtain ⟨v, hv⟩ := Option.isSome_iff_exists.1 (inT _ (by rw [h1]; rfl))
          rcases hc with ⟨c1, c2, _⟩ | ⟨T, c1, _⟩
          · rw [c2] at hv; cases hv
          · have := upRef _ v _ hv c1 h2
            rw [← I.ref _ v d hv h1 fun q => h2 q.mono, ← this]
        · rw [ey y hyx]
          exact I.sideRef y (mem y hy hyx) hs d h1 fun q => h2 q.mono
      · intro y hy hs h1 h2
        by_cases hyx : y = x
        · subst hyx
          rw [tx, ex]
          have hn : ¬ (m (key E y)).isSome = true := by
            rw [I.dom, h1]
            rintro (q | q)
            · cases q
            · exact h2 q.mono
          rcases hc with ⟨c1, c2, c3, c4, c5⟩ | ⟨T, c1, c2, _⟩
          · exact ⟨c4, c5⟩
          · rcases c2 with c2 | c2
            · exact absurd c2 hn
            · exact absurd ⟨y, by simp, hs, rfl, c2⟩ h2
        · rw [ty y hyx, ey y hyx]
          exact I.free y (mem y hy hyx) hs h1 fun q => h2 q.mono
      · intro y hy b h1 h2
        by_cases hyx : y = x
        · subst hyx
          rw [tx]
          rcases hc with ⟨_, _, _, _, c5⟩ | ⟨T, _, _, _, _, _, c6⟩
          · rw [c5]; exact h2
          · exact c6 b h1 h2
        · rw [ty y hyx]
          exact I.own y (mem y hy hyx) b h1 h2
      · intro y hy hs b hb
        by_cases hyx : y = x
        · subst hyx
          rw [tx] at hb
          rcases hc with ⟨_, _, _, _, c5⟩ | ⟨T, c1, _, _, _, c5, _⟩
          · rw [c5] at hb; exact Or.inl hb
          · exact Or.inr (upSrc _ _ b c1 (c5 b hb))
        · rw [ty y hyx] at hb
          rcases I.orig y (mem y hy hyx) hs b hb with q | q | ⟨z, hz, q⟩
          · exact Or.inl q
          · exact Or.inr (Or.inl q)
          · exact Or.inr (Or.inr ⟨z, by simp [hz], q⟩)
      · intro y hy hs h1 v' hv' b hb
        by_cases hyx : y = x
        · subst hyx
          rw [tx] at hb
          rcases hc with ⟨c1, _⟩ | ⟨T, c1, _, _, _, c5, _⟩
          · rw [c1] at hv'; cases hv'
          · rw [c1] at hv'; cases hv'; exact c5 b hb
        · rw [ty y hyx] at hb
          obtain ⟨v, hv⟩ := back _ v' hv' h1
          exact upTag _ v v' hv hv' b (I.sup y (mem y hy hyx) hs h1 v hv b hb)

theorem InvA.run (hpos : ∀ k i, 1 ≤ k → k ≤ E.nt → E.v k i ≠ 0) {g : Nat → Option Nat} (hg : ∀ k n, g k = some n → 1 ≤ n) :
    ∀ (L P : List (Nat × Fin 3)) (j : Nat) (s : St) (m : Map), (P ++ L).Nodup → (∀ x ∈ L, 1 ≤ x.1 ∧ x.1 ≤ E.nt) →
      InvA E es edg0 tag0 P s m →
      (overSides (sideA E) g L j s = .fail ∧ ∃ i, g i = none) ∨
      ∃ s' m', overSides (sideA E) g L j s = .ok s' ∧ InvA E es edg0 tag0 (P ++ L) s' m' := by
  intro L
  induction L with
  | nil =>
    intro P j s m _ _ I
    right
    exact ⟨s, m, rfl, by simpa using I⟩
  | cons x L ih =>
    intro P j s m hn hL I
    have hx := hL x (by simp)
    have hP : x ∉ P := fun q => (List.nodup_append.1 hn).2.2 x q x (by simp) rfl
    unfold overSides
    rcases I.step (hg j) (fun i => hpos x.1 i hx.1 hx.2) hP with ⟨e, q⟩ | ⟨s', m', e, J⟩
    · left; rw [e]; exact ⟨rfl, j, q⟩
    · rw [e]
      have h2 : P ++ x :: L = (P ++ [x]) ++ L := by simp
      rw [h2] at hn ⊢
      exact ih (P ++ [x]) (j + 1) s' m' hn (fun y hy => hL y (by simp [hy])) J

/-- **C90.** The edges of the user reach the triangles.  A side on an edge of the user gets all tags of the (first such) edge and its
reference, unless a non-manifold side there has a reference of its own; a side on no such edge and on no non-manifold one
keeps its tags and has no reference; no tag is lost (but the mark of the option `nosurf` on required edges) or invented.
The table keeps each edge of the user, with its tags and those of all its sides, and for the others answers only if
they are non-manifold.  The only failure is a refusal of the allocator. -/
theorem C90_user (hpos : ∀ k i, 1 ≤ k → k ≤ E.nt → E.v k i ≠ 0) (hes : ∀ d ∈ es, d.a ≠ 0 ∧ d.b ≠ 0)
    {g g' : Nat → Option Nat} (hg : ∀ k n, g k = some n → 1 ≤ n) (hg' : ∀ k n, g' k = some n → 1 ≤ n)
    (edg : Nat → Fin 3 → Int) (tag : Nat → Fin 3 → BitVec 16) :
    (hGeomA E es g g' edg tag = .fail ∧ ((∃ i, g i = none) ∨ ∃ i, g' i = none)) ∨
    ∃ s, hGeomA E es g g' edg tag = .ok s ∧
      (∀ x, Side E tag x → ∀ d, given es (key E x) = some d →
        (∀ b, has d.tag b = true → has (s.tag x.1 x.2) b = true) ∧
        (¬ NomRef E edg tag (sides E) (key E x) → s.edg x.1 x.2 = d.ref)) ∧
      (∀ x, Side E tag x → given es (key E x) = none → ¬ Nom E tag (sides E) (key E x) →
        s.edg x.1 x.2 = 0 ∧ s.tag x.1 x.2 = tag x.1 x.2) ∧
      (∀ x, ¬ Side E tag x → s.edg x.1 x.2 = edg x.1 x.2 ∧ s.tag x.1 x.2 = tag x.1 x.2) ∧
      (∀ (x : Nat × Fin 3) b, (E.nosurf = false ∨ ~~~mgNOSURF &&& b = b) → has (tag x.1 x.2) b = true → has (s.tag x.1 x.2) b = true) ∧
      (∀ x, Side E tag x → ∀ b, has (s.tag x.1 x.2) b = true → (∃ d, given es (key E x) = some d ∧ has d.tag b = true) ∨
        ∃ y, Side E tag y ∧ key E y = key E x ∧ has (tag y.1 y.2) b = true) ∧
      (∀ a b d, given es s(a, b) = some d → ∃ r T, hGet s.h a b = .ok (r, T) ∧
        (¬ NomRef E edg tag (sides E) s(a, b) → r = d.ref) ∧ (∀ c, has d.tag c = true → has T c = true) ∧
        ∀ x, Side E tag x → key E x = s(a, b) → ∀ c, has (s.tag x.1 x.2) c = true → has T c = true) ∧
      (∀ a b, given es s(a, b) = none → ¬ Nom E tag (sides E) s(a, b) → hGet s.h a b = .ok (0, 0)) := by
  unfold hGeomA
  have hle : es.length ≤ 3 * namax es.length := by
    unfold namax
    rw [Hash.maxA]; split <;> omega
  rcases storeAll_spec hg es hes 1 (hNew_inv es.length _ hle) with ⟨h, e, I⟩ | ⟨e, q⟩
  · rw [e]
    simp only [Option.none_or] at I ⊢
    have I0 : InvA E es edg tag [] ⟨h, edg, tag⟩ fun x => (given es x).map fun d => (d.ref, d.tag) := by
      refine ⟨I, fun _ _ => ⟨rfl, rfl⟩, fun _ _ => ⟨rfl, rfl⟩, ?_, ?_, ?_, ?_, ?_, ?_, ?_, ?_, ?_, ?_⟩
      · intro e
        rw [Option.isSome_map]
        constructor
        · exact Or.inl
        · rintro (q | ⟨y, hy, _⟩)
          · exact q
          · simp at hy
      · intro e v d h1 h2 b hb
        rw [h2] at h1; cases h1; exact hb
      · intro e v d h1 h2 _
        rw [h2] at h1; cases h1; rfl
      · intro e v b h1 hb
        rw [Option.map_eq_some_iff] at h1
        obtain ⟨d, hd, rfl⟩ := h1
        exact Or.inl ⟨d, hd, hb⟩
      all_goals intro x hx; simp at hx
    rcases I0.run hpos hg' (sides E) [] 1 _ _ (by simpa using nodup_sides E) (fun x hx => mem_sides.1 hx) with
      ⟨e2, q⟩ | ⟨s, m, e2, J⟩
    · left
      exact ⟨e2, Or.inr q⟩
    · right
      rw [List.nil_append] at J
      have mem : ∀ x, Side E tag x → x ∈ sides E := fun x hx => mem_sides.2 ⟨hx.1, hx.2.1⟩
      refine ⟨s, e2, ?_, ?_, ?_, ?_, ?_, ?_, ?_⟩
      · intro x hx d hd
        exact ⟨J.sideTag x (mem x hx) (side_iff.1 hx).2.2 d hd, J.sideRef x (mem x hx) (side_iff.1 hx).2.2 d hd⟩
      · intro x hx h1 h2
        exact J.free x (mem x hx) (side_iff.1 hx).2.2 h1 h2
      · intro x hx
        by_cases q : x ∈ sides E
        · apply J.skp x
          by_contra c
          have := mem_sides.1 q
          exact hx (side_iff.2 ⟨this.1, this.2, by simpa using c⟩)
        · exact J.out x q
      · intro x b h1 h2
        by_cases q : x ∈ sides E
        · exact J.own x q b h1 h2
        · rw [(J.out x q).2]; exact h2
      · intro x hx b hb
        rcases J.orig x (mem x hx) (side_iff.1 hx).2.2 b hb with q | q | ⟨y, hy, h1, h2, h3⟩
        · exact Or.inr ⟨x, hx, rfl, q⟩
        · exact Or.inl q
        · have := mem_sides.1 hy
          exact Or.inr ⟨y, side_iff.2 ⟨this.1, this.2, h1⟩, h2, h3⟩
      · intro a b d hd
        obtain ⟨v, hv⟩ := Option.isSome_iff_exists.1 ((J.dom s(a, b)).2 (Or.inl (by rw [hd]; rfl)))
        refine ⟨v.1, v.2, ?_, fun hn => J.ref _ v d hv hd hn, J.keep _ v d hv hd, ?_⟩
        · rw [J.g.hGet_spec, hv]; rfl
        · intro x hx hk c hc
          exact J.sup x (mem x hx) (side_iff.1 hx).2.2 (by rw [hk, hd]; rfl) v (by rw [hk]; exact hv) c hc
      · intro a b h1 h2
        rw [J.g.hGet_spec]
        cases hm : m s(a, b) with
        | none => rfl
        | some v =>
          rcases (J.dom s(a, b)).1 (by rw [hm]; rfl) with q | q
          · rw [h1] at q; cases q
          · exact absurd q h2
  · left
    rw [e]
    exact ⟨rfl, Or.inl q⟩

end Mmg.GEdge
