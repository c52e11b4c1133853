/- Specification of the surface adjacency and invariants of the three passes of
`MMG5_mmgHashTria`. -/
import Verif.HashTriaLemmas
import Mathlib.Data.List.Basic

namespace Mmg.HTri
open Mmg.Hash

/-! ### Specification vocabulary -/

/-- Unordered end points of a side (smaller first; third component unused). -/
def key (v : Nat → Nat → Nat) (x : Nat × Nat) : Nat × Nat × Nat :=
  (Nat.min (v x.1 (inxt2 x.2)) (v x.1 (iprv2 x.2)), Nat.max (v x.1 (inxt2 x.2)) (v x.1 (iprv2 x.2)), 0)

/-- Packed reference to a side. -/
def code (x : Nat × Nat) : Nat := 3 * x.1 + x.2

/-- Sides that take part: valid triangle, not a purely parallel side. -/
def act (v : Nat → Nat → Nat) (tag : Nat → Nat → BitVec 16) (x : Nat × Nat) : Bool :=
  v x.1 0 != 0 && !onlyPar (tag x.1 x.2)

/-- The participating sides of the list `P` that have the end points `e`, in order. -/
def on (v : Nat → Nat → Nat) (tag : Nat → Nat → BitVec 16) (e : Nat × Nat × Nat)
    (P : List (Nat × Nat)) : List (Nat × Nat) :=
  P.filter fun x => act v tag x && key v x == e

/-- The triangle lies on the implicit surface (takes over the link of a multiple edge). -/
def isoSide (E : Env) (x : Nat × Nat) : Bool :=
  E.iso && (E.ref x.1 == E.isoref || decide (E.ref x.1 < 0))

/-- The side linked to the first one on an edge with sides `_ :: b :: r`: the last one of `r`
on the implicit surface, `b` if there is none. -/
def partner (E : Env) (b : Nat × Nat) (r : List (Nat × Nat)) : Nat × Nat :=
  r.foldl (fun p y => if isoSide E y then y else p) b

/-- The link of side `x` when the sides of its edge are `L`. -/
def adjSpec (E : Env) (L : List (Nat × Nat)) (x : Nat × Nat) : Nat :=
  match L with
  | [] => 0
  | [_] => 0
  | a :: b :: r => if x = a then code (partner E b r) else if x = partner E b r then code a else 0

/-- Inputs the construction is meant for: positive distinct vertices in a valid triangle, and
no two valid triangles with the same vertices. -/
structure Good (E : Env) (v : Nat → Nat → Nat) : Prop where
  pos : ∀ k, 1 ≤ k → k ≤ E.nt → v k 0 ≠ 0 → ∀ i, i < 3 → v k i ≠ 0
  dist : ∀ k, 1 ≤ k → k ≤ E.nt → v k 0 ≠ 0 → v k 0 ≠ v k 1 ∧ v k 1 ≠ v k 2 ∧ v k 2 ≠ v k 0
  nodup : ∀ k k', 1 ≤ k → k ≤ E.nt → 1 ≤ k' → k' ≤ E.nt → v k 0 ≠ 0 → v k' 0 ≠ 0 → k ≠ k' →
    ¬ ∀ i, i < 3 → ∃ j, j < 3 ∧ v k i = v k' j

/-- A side of the mesh. -/
def IsSide (E : Env) (x : Nat × Nat) : Prop := 1 ≤ x.1 ∧ x.1 ≤ E.nt ∧ x.2 < 3

/-! ### Elementary facts -/

theorem mem_sides {n : Nat} {x : Nat × Nat} : x ∈ sides n ↔ 1 ≤ x.1 ∧ x.1 ≤ n ∧ x.2 < 3 := by
  induction n with
  | zero => simp only [sides, List.not_mem_nil, false_iff]; omega
  | succ n ih =>
    obtain ⟨k, i⟩ := x
    simp only [sides, List.mem_append, ih, List.mem_cons, Prod.mk.injEq, List.not_mem_nil, or_false]
    omega

theorem nodup_sides : ∀ n, (sides n).Nodup
  | 0 => List.nodup_nil
  | n + 1 => by
    rw [sides, List.nodup_append]
    refine ⟨nodup_sides n, by simp, ?_⟩
    intro a ha b hb
    have h1 := (mem_sides.1 ha)
    rintro rfl
    simp only [List.mem_cons, List.not_mem_nil, or_false] at hb
    rcases hb with rfl | rfl | rfl <;> simp at h1 <;> omega

theorem aidx_inj {x y : Nat × Nat} (hx : 1 ≤ x.1) (hx' : x.2 < 3) (hy : 1 ≤ y.1) (hy' : y.2 < 3) :
    aidx x.1 x.2 = aidx y.1 y.2 ↔ x = y := by
  constructor
  · intro h
    simp only [aidx] at h
    exact Prod.ext (by omega) (by omega)
  · rintro rfl; rfl

theorem code_inj {x y : Nat × Nat} (hx' : x.2 < 3) (hy' : y.2 < 3) (h : code x = code y) :
    x = y := by
  simp only [code] at h
  exact Prod.ext (by omega) (by omega)

theorem code_div {x : Nat × Nat} (h : x.2 < 3) : code x / 3 = x.1 := by simp only [code]; omega
theorem code_mod {x : Nat × Nat} (h : x.2 < 3) : code x % 3 = x.2 := by simp only [code]; omega

theorem onlyPar_nom (t : BitVec 16) : onlyPar (t ||| nom) = onlyPar t := by
  have h : ∀ m : BitVec 16, nom &&& m = 0#16 → (t ||| nom) &&& m = t &&& m := by
    intro m hm
    ext i hi
    have := congrArg (fun z => z[i]) hm
    simp only [BitVec.getElem_and, BitVec.getElem_zero] at this
    simp only [BitVec.getElem_and, BitVec.getElem_or, Bool.and_or_distrib_right, this, Bool.or_false]
  simp only [onlyPar, h parBdy (by decide), h parBdyBdy (by decide)]

theorem onlyPar_bdyPar (t : BitVec 16) : onlyPar (t ||| bdyPar) = false := by
  have h : (t ||| bdyPar) &&& parBdyBdy ≠ 0#16 := by
    intro h
    have := congrArg (fun z => z.getLsbD 12) h
    simp [bdyPar, parBdyBdy] at this
  simp [onlyPar, h]

variable {E : Env} {v : Nat → Nat → Nat} {tag : Nat → Nat → BitVec 16}

theorem on_append {e P x} : on v tag e (P ++ [x]) =
    if act v tag x = true ∧ key v x = e then on v tag e P ++ [x] else on v tag e P := by
  unfold on
  rw [List.filter_append]
  by_cases h : act v tag x = true ∧ key v x = e
  · rw [if_pos h]; simp [h.1, h.2]
  · rw [if_neg h]
    have : (act v tag x && key v x == e) = false := by
      rw [Bool.eq_false_iff]; intro h2; simp at h2; exact h h2
    simp [this]

theorem mem_on {e P x} : x ∈ on v tag e P ↔ x ∈ P ∧ act v tag x = true ∧ key v x = e := by
  simp [on]

theorem partner_mem (E : Env) (b : Nat × Nat) (r : List (Nat × Nat)) : partner E b r ∈ b :: r := by
  induction r generalizing b with
  | nil => simp [partner]
  | cons c r ih =>
    have h := ih (if isoSide E c then c else b)
    have e : partner E b (c :: r) = partner E (if isoSide E c then c else b) r := rfl
    rw [e]
    rcases List.mem_cons.1 h with h | h
    · rw [h]; split <;> simp
    · simp [h]

theorem partner_append (E : Env) (b x : Nat × Nat) (r : List (Nat × Nat)) :
    partner E b (r ++ [x]) = if isoSide E x then x else partner E b r := by
  simp [partner, List.foldl_append]

theorem key_first_ne (G : Good E v) {x} (hs : IsSide E x) (ha : v x.1 0 ≠ 0) :
    (key v x).1 ≠ 0 := by
  have h := G.pos x.1 hs.1 hs.2.1 ha
  have h1 := h (inxt2 x.2) (by simp only [inxt2]; omega)
  have h2 := h (iprv2 x.2) (by simp only [iprv2]; omega)
  simp only [key, minA]
  split <;> assumption

/-- Equality of keys is equality of the unordered pair of end points. -/
theorem key_eq_iff {x y : Nat × Nat} : key v x = key v y ↔
    (v x.1 (inxt2 x.2) = v y.1 (inxt2 y.2) ∧ v x.1 (iprv2 x.2) = v y.1 (iprv2 y.2)) ∨
    (v x.1 (inxt2 x.2) = v y.1 (iprv2 y.2) ∧ v x.1 (iprv2 x.2) = v y.1 (inxt2 y.2)) := by
  simp only [key, Prod.mk.injEq, and_true, minA, maxA]
  split <;> split <;> omega

/-- Two participating sides with the same end points have distinct opposite vertices. -/
theorem opp_ne (G : Good E v) {x y : Nat × Nat} (hx : IsSide E x) (hy : IsSide E y)
    (hax : v x.1 0 ≠ 0) (hay : v y.1 0 ≠ 0) (hne : x ≠ y) (hk : key v x = key v y) :
    v x.1 x.2 ≠ v y.1 y.2 := by
  intro ho
  have hk := key_eq_iff.1 hk
  obtain ⟨k, i⟩ := x
  obtain ⟨k', j⟩ := y
  obtain ⟨h1, h2, h3⟩ := hx
  obtain ⟨h4, h5, h6⟩ := hy
  simp only at *
  have hdx := G.dist k h1 h2 hax
  have hi : i = 0 ∨ i = 1 ∨ i = 2 := by omega
  have hj : j = 0 ∨ j = 1 ∨ j = 2 := by omega
  by_cases hkk : k = k'
  · subst hkk
    rcases hi with rfl | rfl | rfl <;> rcases hj with rfl | rfl | rfl <;>
      simp [inxt2, iprv2] at hk hne ho <;> omega
  · apply G.nodup k k' h1 h2 h4 h5 hax hay hkk
    intro a ha
    have ha' : a = i ∨ a = inxt2 i ∨ a = iprv2 i := by
      have : a = 0 ∨ a = 1 ∨ a = 2 := by omega
      rcases hi with rfl | rfl | rfl <;> simp [inxt2, iprv2] <;> omega
    rcases ha' with rfl | rfl | rfl
    · exact ⟨j, h6, ho⟩
    · rcases hk with ⟨h7, _⟩ | ⟨h7, _⟩
      · exact ⟨_, by simp only [inxt2]; omega, h7⟩
      · exact ⟨_, by simp only [iprv2]; omega, h7⟩
    · rcases hk with ⟨_, h7⟩ | ⟨_, h7⟩
      · exact ⟨_, by simp only [iprv2]; omega, h7⟩
      · exact ⟨_, by simp only [inxt2]; omega, h7⟩

/-! ### First pass -/

/-- State after the sides `P`. -/
structure IP (E : Env) (v : Nat → Nat → Nat) (tag : Nat → Nat → BitVec 16) (pt : Nat → BitVec 16)
    (P : List (Nat × Nat)) (s : St) : Prop where
  hv : s.v = v
  hp : s.ptag = pt
  inv : Inv false s.h fun e => (on v tag e P).head?.map code
  cnt : Cnt s.h fun e => (on v tag e P).length
  adj : ∀ x : Nat × Nat, 1 ≤ x.1 → x.2 < 3 →
    s.adj (aidx x.1 x.2) = adjSpec E (on v tag (key v x) P) x
  tag : ∀ x : Nat × Nat, s.tag x.1 x.2 =
    if 3 ≤ (on v tag (key v x) P).length ∧ x ∈ on v tag (key v x) P then tag x.1 x.2 ||| nom
    else tag x.1 x.2

theorem adjSpec_short {L : List (Nat × Nat)} (h : L.length ≤ 1) (x) : adjSpec E L x = 0 := by
  match L, h with
  | [], _ => rfl
  | [_], _ => rfl
  | _ :: _ :: _, h => simp at h

theorem adjSpec_not_mem {L : List (Nat × Nat)} {x} (h : x ∉ L) : adjSpec E L x = 0 := by
  match L, h with
  | [], _ => rfl
  | [_], _ => rfl
  | a :: b :: r, h =>
    have h1 : x ≠ a := by rintro rfl; simp at h
    have h2 : x ≠ partner E b r := by
      intro e; exact h (List.mem_cons_of_mem _ (e ▸ partner_mem E b r))
    simp [adjSpec, h1, h2]

variable {pt : Nat → BitVec 16} {P : List (Nat × Nat)} {s : St} {x : Nat × Nat}

theorem IP.onlyPar_eq (I : IP E v tag pt P s) (x : Nat × Nat) :
    onlyPar (s.tag x.1 x.2) = onlyPar (tag x.1 x.2) := by
  rw [I.tag]; split
  · exact onlyPar_nom _
  · rfl

theorem IP.skip (I : IP E v tag pt P s) (h : act v tag x = false) : IP E v tag pt (P ++ [x]) s := by
  have e : ∀ k, on v tag k (P ++ [x]) = on v tag k P := by
    intro k; rw [on_append, if_neg (by simp [h])]
  refine ⟨I.hv, I.hp, ?_, ?_, ?_, ?_⟩
  · simpa only [e] using I.inv
  · simpa only [e] using I.cnt
  · simpa only [e] using I.adj
  · simpa only [e] using I.tag

/-- A new record: the edge has not been met before. -/
theorem IP.fresh (I : IP E v tag pt P s) (h : act v tag x = true) (hL : on v tag (key v x) P = [])
    {h' : Hash}
    (hI : Inv false h' (upd (fun e => (on v tag e P).head?.map code) (key v x) (code x)))
    (hC : Cnt h' (updN (fun e => (on v tag e P).length) (key v x) 1)) :
    IP E v tag pt (P ++ [x]) ⟨h', v, s.tag, s.adj, s.ptag⟩ := by
  have e : ∀ k, on v tag k (P ++ [x]) = if k = key v x then [x] else on v tag k P := by
    intro k; rw [on_append]
    by_cases hk : k = key v x
    · subst hk; simp [h, hL]
    · rw [if_neg (by rintro ⟨_, h2⟩; exact hk h2.symm), if_neg hk]
  have e1 : (fun k => (on v tag k (P ++ [x])).head?.map code) =
      upd (fun e => (on v tag e P).head?.map code) (key v x) (code x) := by
    funext k; rw [e]; simp only [upd]; split <;> rfl
  have e2 : (fun k => (on v tag k (P ++ [x])).length) =
      updN (fun e => (on v tag e P).length) (key v x) 1 := by
    funext k; rw [e]; simp only [updN]; split <;> rfl
  refine ⟨rfl, I.hp, ?_, ?_, ?_, ?_⟩
  · rw [e1]; exact hI
  · rw [e2]; exact hC
  · intro y h1 h2
    have := I.adj y h1 h2
    simp only [] at *
    rw [this, e]
    split
    · rename_i hk; rw [hk, hL]; rfl
    · rfl
  · intro y
    have := I.tag y
    simp only [] at *
    rw [this, e]
    by_cases hk : key v y = key v x
    · rw [if_pos hk, hk, hL]; simp
    · rw [if_neg hk]

/-- The invariant gives, for a side of an already met edge, the record of the first one. -/
theorem on_isSide (hP : ∀ y ∈ P, IsSide E y) {e y} (h : y ∈ on v tag e P) :
    IsSide E y ∧ v y.1 0 ≠ 0 ∧ key v y = e ∧ y ∈ P := by
  have h1 := mem_on.1 h
  have h2 := h1.2.1
  simp only [act, Bool.and_eq_true, bne_iff_ne] at h2
  exact ⟨hP y h1.1, h2.1, h1.2.2, h1.1⟩

theorem set2_at {α : Type} (f : Nat → Nat → α) (x y : Nat × Nat) (w : α) :
    set2 f x.1 x.2 w y.1 y.2 = if y = x then w else f y.1 y.2 := by
  simp only [set2, Prod.ext_iff]

theorem set1_aidx {f : Nat → Nat} {x y : Nat × Nat} {w : Nat} (hx : 1 ≤ x.1) (hx' : x.2 < 3)
    (hy : 1 ≤ y.1) (hy' : y.2 < 3) :
    set1 f (aidx x.1 x.2) w (aidx y.1 y.2) = if y = x then w else f (aidx y.1 y.2) := by
  simp only [set1, aidx_inj hy hy' hx hx']

/-- The edge has been met: what `onHit` does. -/
theorem IP.hit (G : Good E v) (hP : ∀ y ∈ P, IsSide E y) (hnd : P.Nodup)
    (I : IP E v tag pt P s) (h : act v tag x = true)
    (hs : IsSide E x) (hx : x ∉ P) {a : Nat × Nat} {r : List (Nat × Nat)}
    (hL : on v tag (key v x) P = a :: r) {q} (hq : Used s.h q)
    (hqk : ckey false (s.h.item q) = key v x) (hqc : (s.h.item q).k = code a) :
    ∃ s', onHit E s x.1 x.2 q = .ok s' ∧ IP E v tag pt (P ++ [x]) s' := by
  have hax : v x.1 0 ≠ 0 := by
    simp only [act, Bool.and_eq_true, bne_iff_ne] at h; exact h.1
  have hmem : ∀ y, y ∈ a :: r → IsSide E y ∧ v y.1 0 ≠ 0 ∧ key v y = key v x ∧ y ∈ P := by
    intro y hy; rw [← hL] at hy; exact on_isSide hP hy
  obtain ⟨hsa, haa, hka, haP⟩ := hmem a (by simp)
  have hxa : x ≠ a := fun e => hx (e ▸ haP)
  have hopp : v a.1 a.2 ≠ v x.1 x.2 := opp_ne G hsa hs haa hax (Ne.symm hxa) hka
  have hLn : (a :: r).Nodup := by rw [← hL]; exact hnd.filter _
  have e : ∀ k, on v tag k (P ++ [x]) = if k = key v x then a :: (r ++ [x]) else on v tag k P := by
    intro k; rw [on_append]
    by_cases hk : k = key v x
    · subst hk; simp [h, hL]
    · rw [if_neg (by rintro ⟨_, h2⟩; exact hk h2.symm), if_neg hk]
  have e1 : (fun k => (on v tag k (P ++ [x])).head?.map code) =
      fun e => (on v tag e P).head?.map code := by
    funext k; rw [e]; split
    · rename_i hk; rw [hk, hL]; rfl
    · rfl
  have e2 : (fun k => (on v tag k (P ++ [x])).length) =
      updN (fun e => (on v tag e P).length) (key v x) ((on v tag (key v x) P).length + 1) := by
    funext k; rw [e]; simp only [updN]; split
    · rw [hL]; simp
    · rfl
  obtain ⟨hI2, hC2⟩ := incS_spec I.inv I.cnt hq hqk
  have hdiv : (s.h.item q).k / 3 = a.1 := by rw [hqc]; exact code_div hsa.2.2
  have hmod : (s.h.item q).k % 3 = a.2 := by rw [hqc]; exact code_mod hsa.2.2
  have hub : ¬ (a.1 = 0 ∨ E.nt < a.1) := by have := hsa.1; have := hsa.2.1; omega
  have hadja := I.adj a hsa.1 hsa.2.2
  have hadjx := I.adj x hs.1 hs.2.2
  rw [hka, hL] at hadja
  rw [hL] at hadjx
  have hxL : x ∉ a :: r := fun hm => hx (hmem x hm).2.2.2
  rw [adjSpec_not_mem hxL] at hadjx
  unfold onHit
  simp only [hdiv, hmod, if_neg hub, I.hv, if_neg hopp]
  cases r with
  | nil =>
    rw [if_pos (by rw [hadja]; rfl)]
    refine ⟨_, rfl, rfl, I.hp, ?_, ?_, ?_, ?_⟩
    · rw [e1]; exact hI2
    · rw [e2]; exact hC2
    · intro y h1 h2
      simp only []
      rw [show 3 * a.1 + a.2 = code a from rfl, show 3 * x.1 + x.2 = code x from rfl,
        set1_aidx hsa.1 hsa.2.2 h1 h2, set1_aidx hs.1 hs.2.2 h1 h2, e]
      by_cases hk : key v y = key v x
      · rw [if_pos hk]
        show _ = if y = a then code x else if y = x then code a else 0
        by_cases hy : y = a
        · rw [if_pos hy, if_pos hy]
        · rw [if_neg hy, if_neg hy]
          by_cases hyx : y = x
          · rw [if_pos hyx, if_pos hyx]
          · rw [if_neg hyx, if_neg hyx, I.adj y h1 h2, hk, hL]; rfl
      · rw [if_neg hk, if_neg (fun h : y = a => hk (h ▸ hka)), if_neg (fun h : y = x => hk (h ▸ rfl))]
        exact I.adj y h1 h2
    · intro y
      have := I.tag y
      simp only [] at *
      rw [this, e]
      by_cases hk : key v y = key v x
      · rw [if_pos hk, hk, hL]; simp
      · rw [if_neg hk]
  | cons b r =>
    have hadja' : s.adj (aidx a.1 a.2) = code (partner E b r) := by rw [hadja]; simp [adjSpec]
    have hpm : partner E b r ∈ a :: b :: r := List.mem_cons_of_mem _ (partner_mem E b r)
    generalize hp : partner E b r = p at *
    obtain ⟨hsp, hap, hkp, hpP⟩ := hmem p hpm
    have hpa : p ≠ a := by
      rintro rfl
      have := partner_mem E b r
      rw [hp] at this
      exact (List.nodup_cons.1 hLn).1 this
    have hxp : x ≠ p := fun e => hx (e ▸ hpP)
    have hc0 : code p ≠ 0 := by have := hsp.1; simp only [code]; omega
    have hca0 : 0 ≠ 3 * a.1 + a.2 := by have := hsa.1; omega
    have hub2 : ¬ (p.1 = 0 ∨ E.nt < p.1) := by have := hsp.1; have := hsp.2.1; omega
    rw [if_neg (by rw [hadja']; exact hc0)]
    simp only [hadja', hadjx, if_pos hca0, ne_eq, hca0, not_false_eq_true, if_true,
      code_div hsp.2.2, code_mod hsp.2.2, if_neg hub2]
    have hiso : (E.iso = true ∧ (E.ref x.1 = E.isoref ∨ E.ref x.1 < 0)) ↔ isoSide E x = true := by
      simp [isoSide]
    refine ⟨_, rfl, rfl, I.hp, ?_, ?_, ?_, ?_⟩
    · rw [e1]; exact hI2
    · rw [e2]; exact hC2
    · intro y h1 h2
      simp only []
      rw [e]
      by_cases hiso' : isoSide E x = true
      · rw [if_pos (hiso.2 hiso'), show 3 * a.1 + a.2 = code a from rfl,
          show 3 * x.1 + x.2 = code x from rfl,
          set1_aidx hsa.1 hsa.2.2 h1 h2, set1_aidx hs.1 hs.2.2 h1 h2, set1_aidx hsp.1 hsp.2.2 h1 h2]
        by_cases hk : key v y = key v x
        · rw [if_pos hk]
          simp only [List.cons_append, adjSpec, partner_append, if_pos hiso']
          by_cases hy : y = a
          · rw [if_pos hy, if_pos hy]
          · rw [if_neg hy, if_neg hy]
            by_cases hyx : y = x
            · rw [if_pos hyx, if_pos hyx]
            · rw [if_neg hyx, if_neg hyx]
              by_cases hyp : y = p
              · rw [if_pos hyp]
              · rw [if_neg hyp, I.adj y h1 h2, hk, hL]
                simp only [adjSpec, hp, if_neg hyp, if_neg hy]
        · rw [if_neg hk, if_neg (fun h : y = a => hk (h ▸ hka)), if_neg (fun h : y = x => hk (h ▸ rfl)),
            if_neg (fun h : y = p => hk (h ▸ hkp))]
          exact I.adj y h1 h2
      · rw [if_neg (fun h => hiso' (hiso.1 h)), I.adj y h1 h2]
        by_cases hk : key v y = key v x
        · rw [if_pos hk, hk, hL]
          simp only [List.cons_append, adjSpec, partner_append, if_neg hiso']
        · rw [if_neg hk]
    · intro y
      simp only []
      rw [set2_at, set2_at, set2_at, set2_at, set2_at, set2_at, if_neg hpa, if_neg hxa.symm,
        if_neg hxp.symm, e]
      by_cases hk : key v y = key v x
      · rw [if_pos hk]
        have hlen : 3 ≤ (a :: (b :: r ++ [x])).length := by simp
        have hold := I.tag y
        rw [hk, hL] at hold
        have idem : ∀ t : BitVec 16, t ||| nom ||| nom = t ||| nom := by
          intro t; rw [BitVec.or_assoc, BitVec.or_self]
        have key : ∀ z, z ∈ a :: b :: r → s.tag z.1 z.2 ||| nom = tag z.1 z.2 ||| nom := by
          intro z _
          rw [I.tag z]; split
          · exact idem _
          · rfl
        by_cases hyp : y = p
        · subst hyp
          rw [if_pos rfl, if_pos ⟨hlen, by
            rw [show a :: (b :: r ++ [x]) = (a :: b :: r) ++ [x] from rfl]
            exact List.mem_append_left _ hpm⟩]
          exact key _ hpm
        · rw [if_neg hyp]
          by_cases hya : y = a
          · subst hya
            rw [if_pos rfl, if_pos ⟨hlen, by simp⟩]
            exact key _ (by simp)
          · rw [if_neg hya]
            by_cases hyx : y = x
            · subst hyx
              rw [if_pos rfl, if_pos ⟨hlen, by simp⟩]
              rw [hold, if_neg (fun h => hxL h.2)]
            · rw [if_neg hyx, hold]
              by_cases hm : y ∈ a :: b :: r
              · have hl3 : 3 ≤ (a :: b :: r).length := ?_
                · rw [if_pos ⟨hl3, hm⟩, if_pos ⟨hlen, by
                    rw [show a :: (b :: r ++ [x]) = (a :: b :: r) ++ [x] from rfl]
                    exact List.mem_append_left _ hm⟩]
                cases r with
                | nil =>
                  exfalso
                  simp only [partner, List.foldl_nil] at hp
                  simp only [List.mem_cons, List.not_mem_nil, or_false] at hm
                  rcases hm with h1 | h1
                  · exact hya h1
                  · exact hyp (h1.trans hp)
                | cons c r => simp
              · rw [if_neg (fun h => hm h.2), if_neg]
                rintro ⟨_, h2⟩
                rw [show a :: (b :: r ++ [x]) = (a :: b :: r) ++ [x] from rfl,
                  List.mem_append, List.mem_singleton] at h2
                rcases h2 with h2 | h2
                · exact hm h2
                · exact hyx h2
      · rw [if_neg hk, if_neg (fun h : y = p => hk (h ▸ hkp)), if_neg (fun h : y = a => hk (h ▸ hka)),
          if_neg (fun h : y = x => hk (h ▸ rfl))]
        exact I.tag y

/-- One turn of the first pass. -/
theorem IP.step (G : Good E v) (hg : ∀ c n, E.g c = some n → 1 ≤ n)
    (hP : ∀ y ∈ P, IsSide E y) (hnd : P.Nodup) (I : IP E v tag pt P s)
    (hs : IsSide E x) (hx : x ∉ P) :
    (∃ s', sideStep E s x.1 x.2 = .ok s' ∧ IP E v tag pt (P ++ [x]) s') ∨
    (sideStep E s x.1 x.2 = .fail ∧ E.g (code x) = none) := by
  unfold sideStep
  rw [I.hv]
  by_cases hv0 : v x.1 0 = 0
  · left
    rw [if_pos hv0]
    exact ⟨s, rfl, I.skip (by simp [act, hv0])⟩
  rw [if_neg hv0, I.onlyPar_eq]
  by_cases hop : onlyPar (tag x.1 x.2) = true
  · left
    rw [if_pos hop]
    exact ⟨s, rfl, I.skip (by simp [act, hop])⟩
  rw [if_neg hop]
  have h : act v tag x = true := by simp [act, hv0, hop]
  have hk0 := key_first_ne G hs hv0
  have hkey : key v x = (Nat.min (v x.1 (inxt2 x.2)) (v x.1 (iprv2 x.2)),
    Nat.max (v x.1 (inxt2 x.2)) (v x.1 (iprv2 x.2)), 0) := rfl
  generalize hia : Nat.min (v x.1 (inxt2 x.2)) (v x.1 (iprv2 x.2)) = ia at *
  generalize hib : Nat.max (v x.1 (inxt2 x.2)) (v x.1 (iprv2 x.2)) = ib at *
  have hia0 : ia ≠ 0 := by rw [hkey] at hk0; exact hk0
  have hbo := I.inv.bucket_ok ia ib
  simp only [hia, hib, if_neg hbo.1, if_neg hbo.2]
  by_cases hne : (s.h.item (bucket s.h.siz ia ib)).a = 0
  · left
    rw [if_pos hne]
    obtain ⟨h1, h2, h3⟩ := head_spec (kk := code x) I.inv I.cnt hia0 hne
    refine ⟨_, rfl, ?_⟩
    rw [← hkey] at h1 h2 h3
    refine I.fresh h ?_ h1 h2
    cases hL : on v tag (key v x) P with
    | nil => rfl
    | cons a r => rw [hL] at h3; simp at h3
  · rw [if_neg hne]
    rcases find_spec I.inv hne with ⟨q, hw, hu, hck, hM⟩ | ⟨t, hw, hu, htn, htb, hM⟩
    · left
      rw [hw]
      simp only []
      rw [← hkey] at hck hM
      cases hL : on v tag (key v x) P with
      | nil => rw [hL] at hM; simp at hM
      | cons a r =>
        rw [hL] at hM
        exact I.hit G hP hnd h hs hx hL hu hck (by simpa using hM.symm)
    · rw [hw]
      simp only []
      rcases addCell_spec (kk := code x) I.inv I.cnt hia0 hu htn htb hM (E.g (code x)) (hg _) with
        ⟨h', h1, h2, h3⟩ | ⟨h1, h2⟩
      · left
        rw [show 3 * x.1 + x.2 = code x from rfl, h1]
        refine ⟨_, rfl, ?_⟩
        rw [← hkey] at h2 h3 hM
        refine I.fresh h ?_ h2 h3
        cases hL : on v tag (key v x) P with
        | nil => rfl
        | cons a r => rw [hL] at hM; simp at hM
      · right
        rw [show 3 * x.1 + x.2 = code x from rfl, h1]
        exact ⟨rfl, h2⟩

theorem IP.run (G : Good E v) (hg : ∀ c n, E.g c = some n → 1 ≤ n) :
    ∀ (Q P : List (Nat × Nat)) (s : St), (∀ y ∈ P ++ Q, IsSide E y) → (P ++ Q).Nodup →
      IP E v tag pt P s →
      (∃ s', HTri.run (sideStep E) Q s = .ok s' ∧ IP E v tag pt (P ++ Q) s') ∨
      (HTri.run (sideStep E) Q s = .fail ∧ ∃ x ∈ Q, E.g (code x) = none) := by
  intro Q
  induction Q with
  | nil => intro P s _ _ I; left; exact ⟨s, rfl, by simpa using I⟩
  | cons x Q ih =>
    intro P s hS hN I
    have hN' := List.nodup_append.1 hN
    have hxP : x ∉ P := fun h => hN'.2.2 x h x (by simp) rfl
    rcases I.step G hg (fun y hy => hS y (by simp [hy])) hN'.1 (hS x (by simp)) hxP with
      ⟨s', h1, h2⟩ | ⟨h1, h2⟩
    · have e : P ++ x :: Q = (P ++ [x]) ++ Q := by simp
      rcases ih (P ++ [x]) s' (by rw [← e]; exact hS) (by rw [← e]; exact hN) h2 with
        ⟨s2, h3, h4⟩ | ⟨h3, y, h4, h5⟩
      · left
        refine ⟨s2, ?_, by rw [e]; exact h4⟩
        simp only [HTri.run, h1]; exact h3
      · right
        refine ⟨?_, y, by simp [h4], h5⟩
        simp only [HTri.run, h1]; exact h3
    · right
      exact ⟨by simp only [HTri.run, h1], x, by simp, h2⟩

end Mmg.HTri
