/- The table of the geometric edges is a finite map: invariant, from the one of the edge hash table of `Verif.HashLemmas`. -/
import Mathlib.Data.Sym.Sym2
import Mathlib.Data.Sym.Sym2.Order
import Verif.HashLemmas
import Verif.GEdgeModel

namespace Mmg.GEdge

open Mmg.Hash (Outcome WalkRes bucket Inv Used ckey cmatch cmatch_iff keyOk_edge bk upd walkIns)

/-- A number for a reference and a tag. -/
def enc (v : Int × BitVec 16) : Nat := (if 0 ≤ v.1 then 2 * v.1.natAbs else 2 * v.1.natAbs + 1) * 65536 + v.2.toNat

theorem enc_inj {v w : Int × BitVec 16} (h : enc v = enc w) : v = w := by
  obtain ⟨r, t⟩ := v
  obtain ⟨r', t'⟩ := w
  unfold enc at h
  simp only at h
  have h1 : t.toNat < 65536 := t.isLt
  have h2 : t'.toNat < 65536 := t'.isLt
  have e : t.toNat = t'.toNat := by omega
  have e' : r = r' := by
    rw [e] at h
    split at h <;> split at h <;> omega
  rw [e', BitVec.eq_of_toNat_eq e]

/-- The same table with a number in each cell. -/
def toCell (c : GCell) : Hash.Cell := ⟨c.a, c.b, 0, enc (c.ref, c.tag), c.nxt⟩

theorem toCell_zero (n : Nat) : toCell { GCell.zero with nxt := n } = { Hash.Cell.zero with nxt := n } := by
  simp [toCell, enc, GCell.zero, Hash.Cell.zero]

theorem toCell_zero' : toCell GCell.zero = Hash.Cell.zero := toCell_zero 0

def toHash (h : HGeom) : Hash.Hash := ⟨h.siz, h.max, h.nxt, fun j => toCell (h.geom j)⟩

theorem toHash_put (h : HGeom) (p : Nat) (c : GCell) : toHash (h.put p c) = (toHash h).put p (toCell c) := by
  unfold toHash HGeom.put Hash.Hash.put
  simp only [Hash.Hash.mk.injEq, true_and]
  funext j
  split <;> rfl

abbrev Map := Sym2 Nat → Option (Int × BitVec 16)

/-- The map on ordered pairs. -/
def lift (m : Map) (x : Nat × Nat × Nat) : Option Nat :=
  if x.1 ≤ x.2.1 ∧ x.2.2 = 0 then (m s(x.1, x.2.1)).map enc else none

structure GInv (h : HGeom) (m : Map) : Prop where
  inv : Inv false (toHash h) (lift m)
  zero : ∀ j, h.nxt ≤ j → (h.geom j).a = 0

theorem min_max (a b : Nat) : s(Nat.min a b, Nat.max a b) = s(a, b) := by
  rcases Nat.le_total a b with h | h
  · rw [show Nat.min a b = a from Nat.min_eq_left h, show Nat.max a b = b from Nat.max_eq_right h]
  · rw [show Nat.min a b = b from Nat.min_eq_right h, show Nat.max a b = a from Nat.max_eq_left h, Sym2.eq_swap]

theorem min_le_max (a b : Nat) : Nat.min a b ≤ Nat.max a b := by
  rw [Hash.minA, Hash.maxA]; split <;> omega

theorem lift_key (m : Map) (a b : Nat) : lift m (Nat.min a b, Nat.max a b, 0) = (m s(a, b)).map enc := by
  unfold lift
  rw [if_pos ⟨min_le_max a b, rfl⟩]
  simp only
  rw [min_max]

theorem pair_of {a b c d : Nat} (h : c ≤ d) (e : s(c, d) = s(a, b)) : c = Nat.min a b ∧ d = Nat.max a b := by
  rw [Sym2.eq_iff] at e
  rw [Hash.minA, Hash.maxA]
  rcases e with ⟨rfl, rfl⟩ | ⟨rfl, rfl⟩ <;> split <;> omega

/-- The map with another value for one edge. -/
def setM (m : Map) (e : Sym2 Nat) (v : Int × BitVec 16) : Map := fun x => if x = e then some v else m x

theorem upd_lift (m : Map) (a b : Nat) (v : Int × BitVec 16) :
    upd (lift m) (Nat.min a b, Nat.max a b, 0) (enc v) = lift (setM m s(a, b) v) := by
  funext x
  obtain ⟨c, d, z⟩ := x
  unfold upd
  by_cases h : (c, d, z) = (Nat.min a b, Nat.max a b, 0)
  · rw [if_pos h, h, lift_key]
    simp [setM]
  · rw [if_neg h]
    unfold lift
    by_cases h' : c ≤ d ∧ z = 0
    · rw [if_pos h', if_pos h']
      simp only [setM]
      rw [if_neg]
      intro e
      obtain ⟨e1, e2⟩ := pair_of h'.1 e
      apply h
      rw [e1, e2, h'.2]
    · rw [if_neg h', if_neg h']

theorem gmatch_eq (ia ib : Nat) (c : GCell) : gmatch ia ib c = cmatch false (ia, ib, 0) (toCell c) := by
  simp [gmatch, cmatch, toCell]

theorem walk_eq {h : HGeom} {M} (I : Inv false (toHash h) M) (ia ib : Nat) :
    ∀ fuel p, Used (toHash h) p → walk ia ib h fuel p = walkIns false (ia, ib, 0) (toHash h) fuel p := by
  intro fuel
  induction fuel with
  | zero => intro p _; rfl
  | succ n ih =>
    intro p hp
    have hlt : p < h.max := I.used_lt hp
    unfold walk walkIns
    rw [if_neg (show ¬ h.max < p by omega), if_neg (show ¬ (toHash h).max < p from Nat.not_lt.2 (Nat.le_of_lt hlt))]
    simp only
    show _ = if (h.geom p).nxt ≠ 0 ∧ (h.geom p).nxt < h.max then _ else _
    by_cases hn : (h.geom p).nxt = 0
    · simp [hn]
    · have hu := I.next_used hp hn
      have hl : (h.geom p).nxt < h.max := I.used_lt hu
      rw [if_pos hn, if_neg (show ¬ h.max < (h.geom p).nxt by omega)]
      show _ = if (h.geom p).nxt ≠ 0 ∧ (h.geom p).nxt < h.max then (if cmatch false (ia, ib, 0) (toCell (h.geom (h.geom p).nxt)) = true then
        Outcome.ok (WalkRes.hit (h.geom p).nxt) else walkIns false (ia, ib, 0) (toHash h) n (h.geom p).nxt) else _
      have c : (h.geom p).nxt ≠ 0 ∧ (h.geom p).nxt < h.max := ⟨hn, hl⟩
      rw [if_pos c, gmatch_eq, show walk ia ib h n (h.geom p).nxt = _ from ih _ hu]

variable {h : HGeom} {m : Map}

theorem GInv.val (I : GInv h m) {a b p : Nat} (hp : Used (toHash h) p)
    (hk : ckey false ((toHash h).item p) = (Nat.min a b, Nat.max a b, 0)) : m s(a, b) = some ((h.geom p).ref, (h.geom p).tag) := by
  have := I.inv.get_of_mem hp hk
  rw [lift_key] at this
  cases hm : m s(a, b) with
  | none => rw [hm] at this; cases this
  | some v =>
    rw [hm] at this
    simp only [Option.map_some, Option.some.injEq] at this
    rw [enc_inj (w := ((h.geom p).ref, (h.geom p).tag)) this]

theorem GInv.absent (I : GInv h m) {a b : Nat} (e : lift m (Nat.min a b, Nat.max a b, 0) = none) : m s(a, b) = none := by
  have _ := I
  rw [lift_key] at e
  cases hm : m s(a, b) with
  | none => rfl
  | some v => rw [hm] at e; cases e

theorem GInv.find_spec (I : GInv h m) (a b : Nat) :
    (find h a b = .ok none ∧ m s(a, b) = none) ∨
    ∃ p, find h a b = .ok (some p) ∧ Used (toHash h) p ∧ ckey false ((toHash h).item p) = (Nat.min a b, Nat.max a b, 0) := by
  have hx := keyOk_edge (Nat.min a b) (Nat.max a b)
  have hbo := I.inv.bucket_ok (Nat.min a b) (Nat.max a b)
  unfold find
  simp only
  rw [if_neg (show ¬ h.siz = 0 from hbo.1), if_neg (show ¬ h.max < bucket h.siz _ _ from hbo.2)]
  by_cases hne : (h.geom (bucket h.siz (Nat.min a b) (Nat.max a b))).a = 0
  · left
    rw [if_pos hne]
    exact ⟨rfl, I.absent (I.inv.none_of_empty (x := (Nat.min a b, Nat.max a b, 0)) hne)⟩
  · rw [if_neg hne]
    have hu : Used (toHash h) (bucket h.siz (Nat.min a b) (Nat.max a b)) := Or.inl ⟨Hash.bucket_lt I.inv.hsiz, hne⟩
    by_cases hm : ckey false ((toHash h).item (bucket h.siz (Nat.min a b) (Nat.max a b))) = (Nat.min a b, Nat.max a b, 0)
    · right
      rw [if_pos (by rw [gmatch_eq]; exact (cmatch_iff hx).2 hm)]
      exact ⟨_, rfl, hu, hm⟩
    · rw [if_neg (by rw [gmatch_eq]; exact fun q => hm ((cmatch_iff hx).1 q)), walk_eq I.inv _ _ _ _ hu]
      rcases I.inv.find_spec (x := (Nat.min a b, Nat.max a b, 0)) hx hne hm with ⟨q, hw, hq, hk⟩ | ⟨t, hw, _, _, _, hM⟩
      · right
        refine ⟨q, ?_, hq, hk⟩
        rw [show walkIns false (Nat.min a b, Nat.max a b, 0) (toHash h) (h.max + 2) (bucket h.siz (Nat.min a b) (Nat.max a b)) = _ from hw]
      · left
        refine ⟨?_, I.absent hM⟩
        rw [show walkIns false (Nat.min a b, Nat.max a b, 0) (toHash h) (h.max + 2) (bucket h.siz (Nat.min a b) (Nat.max a b)) = _ from hw]

theorem GInv.hGet_spec (I : GInv h m) (a b : Nat) : hGet h a b = .ok ((m s(a, b)).getD (0, 0)) := by
  unfold hGet
  rcases I.find_spec a b with ⟨e, hm⟩ | ⟨p, e, hp, hk⟩
  · rw [e, hm]; rfl
  · rw [e, I.val hp hk]; rfl

/-- What a tag does. -/
def tagM (m : Map) (e : Sym2 Nat) (ref : Int) (tag : BitVec 16) : Map :=
  fun x => if x = e then (m e).map fun v => (if ref ≠ 0 then ref else v.1, v.2 ||| tag) else m x

theorem GInv.hTag_spec (I : GInv h m) (a b : Nat) (ref : Int) (tag : BitVec 16) :
    ∃ h', hTag h a b ref tag = .ok (h', (m s(a, b)).isSome) ∧ GInv h' (tagM m s(a, b) ref tag) := by
  unfold hTag
  rcases I.find_spec a b with ⟨e, hm⟩ | ⟨p, e, hp, hk⟩
  · rw [e, hm]
    refine ⟨h, rfl, ?_⟩
    have : tagM m s(a, b) ref tag = m := by
      funext x; unfold tagM; split
      · next q => rw [q, hm]; rfl
      · rfl
    rw [this]; exact I
  · rw [e, I.val hp hk]
    refine ⟨_, rfl, ?_, ?_⟩
    · rw [toHash_put]
      have := I.inv.setVal hp (enc (if ref ≠ 0 then ref else (h.geom p).ref, (h.geom p).tag ||| tag))
      rw [hk, upd_lift] at this
      have e2 : setM m s(a, b) (if ref ≠ 0 then ref else (h.geom p).ref, (h.geom p).tag ||| tag) = tagM m s(a, b) ref tag := by
        funext x; unfold setM tagM; rw [I.val hp hk]; rfl
      rw [e2] at this
      exact this
    · intro j hj
      have hj' : h.nxt ≤ j := hj
      show (if j = p then _ else h.geom j : GCell).a = 0
      split
      · next q => show (h.geom p).a = 0; rw [← q]; exact I.zero j hj'
      · exact I.zero j hj'

theorem append_eq (h : HGeom) (t ia ib : Nat) (ref : Int) (tag : BitVec 16) (g : Option Nat) :
    Hash.appendThenGrow (toHash h) t (fun c => { c with a := ia, b := ib, s := 0, k := enc (ref, tag) }) g =
      match append h t ia ib ref tag g with
      | .ub => .ub
      | .fail => .fail
      | .ok h' => .ok (toHash h') := by
  have e0 : (toHash h).put t { (toHash h).item t with nxt := (toHash h).nxt } = toHash (h.put t { h.geom t with nxt := h.nxt }) := by
    rw [toHash_put]; rfl
  unfold Hash.appendThenGrow append
  simp only
  rw [e0]
  by_cases c1 : (h.put t { h.geom t with nxt := h.nxt }).max < h.nxt
  · rw [if_pos (by exact c1), if_pos c1]
  · rw [if_neg (by exact c1), if_neg c1]
    generalize h.put t { h.geom t with nxt := h.nxt } = h1
    have e1 : (Hash.Hash.mk (toHash h1).siz (toHash h1).max ((toHash h1).item (toHash h).nxt).nxt (toHash h1).item).put (toHash h).nxt
        { (toHash h1).item (toHash h).nxt with a := ia, b := ib, s := 0, k := enc (ref, tag), nxt := 0 } =
        toHash (({ h1 with nxt := (h1.geom h.nxt).nxt } : HGeom).put h.nxt ⟨ia, ib, ref, tag, 0⟩) := by
      rw [toHash_put]; rfl
    simp only at e1 ⊢
    rw [e1]
    generalize ({ h1 with nxt := (h1.geom h.nxt).nxt } : HGeom).put h.nxt ⟨ia, ib, ref, tag, 0⟩ = h2
    by_cases c2 : h2.max ≤ h2.nxt
    · rw [if_pos (by exact c2), if_pos c2]
      cases g with
      | none => rfl
      | some n =>
        simp only [Outcome.ok.injEq]
        unfold Hash.Hash.relink Hash.Hash.grow toHash
        simp only [Hash.Hash.mk.injEq, true_and]
        funext j
        by_cases q : h2.nxt ≤ j ∧ j < h2.max + n
        · rw [if_pos q, if_pos q]
          by_cases q' : h2.max < j
          · simp only [if_pos q']; exact (toCell_zero (j + 1)).symm
          · simp only [if_neg q']; rfl
        · rw [if_neg q, if_neg q]
          by_cases q' : h2.max < j
          · simp only [if_pos q']; exact toCell_zero'.symm
          · simp only [if_neg q']
    · rw [if_neg (by exact c2), if_neg c2]

theorem append_zero {h h' : HGeom} {t ia ib : Nat} {ref : Int} {tag : BitVec 16} {g : Option Nat} (ht : t < h.nxt)
    (hn : (h.geom h.nxt).nxt = h.nxt + 1) (hz : ∀ j, h.nxt ≤ j → (h.geom j).a = 0)
    (e : append h t ia ib ref tag g = .ok h') : ∀ j, h'.nxt ≤ j → (h'.geom j).a = 0 := by
  unfold append at e
  simp only at e
  have e1 : (h.put t { h.geom t with nxt := h.nxt }).geom h.nxt = h.geom h.nxt := by
    show (if h.nxt = t then _ else _ : GCell) = _
    rw [if_neg (by omega)]
  rw [e1, hn] at e
  split at e
  · cases e
  · have z2 : ∀ j, h.nxt + 1 ≤ j → ((({ h.put t { h.geom t with nxt := h.nxt } with nxt := h.nxt + 1 } : HGeom).put h.nxt
        ⟨ia, ib, ref, tag, 0⟩).geom j).a = 0 := by
      intro j hj
      show (if j = h.nxt then _ else (if j = t then _ else h.geom j) : GCell).a = 0
      rw [if_neg (by omega), if_neg (by omega)]
      exact hz j (by omega)
    split at e
    · cases g with
      | none => cases e
      | some n =>
        simp only [Outcome.ok.injEq] at e
        subst e
        intro j hj
        have hj' : h.nxt + 1 ≤ j := hj
        have := z2 j hj'
        simp only
        split
        · split
          · rfl
          · exact this
        · split
          · rfl
          · exact this
    · simp only [Outcome.ok.injEq] at e
      subst e
      exact z2

/-- What an insertion does: the first value stays. -/
def addM (m : Map) (e : Sym2 Nat) (v : Int × BitVec 16) : Map := fun x => if x = e then some ((m e).getD v) else m x

theorem addM_some {m : Map} {e : Sym2 Nat} {w} (h : m e = some w) (v) : addM m e v = m := by
  funext x; unfold addM; split
  · next q => rw [q, h]; rfl
  · rfl

theorem addM_none {m : Map} {e : Sym2 Nat} (h : m e = none) (v) : addM m e v = setM m e v := by
  funext x; unfold addM setM; rw [h]; rfl

theorem GInv.hEdge_spec (I : GInv h m) {a b : Nat} (ha : a ≠ 0) (hb : b ≠ 0) (ref : Int) (tag : BitVec 16) {g : Option Nat}
    (hg : ∀ n, g = some n → 1 ≤ n) :
    (∃ h', hEdge h a b ref tag g = .ok h' ∧ GInv h' (addM m s(a, b) (ref, tag))) ∨ (hEdge h a b ref tag g = .fail ∧ g = none) := by
  have hx := keyOk_edge (Nat.min a b) (Nat.max a b)
  have hbo := I.inv.bucket_ok (Nat.min a b) (Nat.max a b)
  have hia : Nat.min a b ≠ 0 := by rw [Hash.minA]; split <;> assumption
  unfold hEdge
  simp only
  rw [if_neg (show ¬ h.siz = 0 from hbo.1), if_neg (show ¬ h.max < bucket h.siz _ _ from hbo.2)]
  by_cases hm : ckey false ((toHash h).item (bucket h.siz (Nat.min a b) (Nat.max a b))) = (Nat.min a b, Nat.max a b, 0)
  · left
    rw [if_pos (by rw [gmatch_eq]; exact (cmatch_iff hx).2 hm)]
    refine ⟨h, rfl, ?_⟩
    have hu : Used (toHash h) (bucket h.siz (Nat.min a b) (Nat.max a b)) := by
      refine Or.inl ⟨Hash.bucket_lt I.inv.hsiz, ?_⟩
      have : ((toHash h).item (bucket h.siz (Nat.min a b) (Nat.max a b))).a = Nat.min a b := congrArg Prod.fst hm
      rw [this]; exact hia
    rw [addM_some (I.val hu hm)]; exact I
  · rw [if_neg (by rw [gmatch_eq]; exact fun q => hm ((cmatch_iff hx).1 q))]
    by_cases hne : (h.geom (bucket h.siz (Nat.min a b) (Nat.max a b))).a = 0
    · left
      rw [if_neg (by simp [hne])]
      refine ⟨_, rfl, ?_, ?_⟩
      · rw [toHash_put]
        have := I.inv.insHead (x := (Nat.min a b, Nat.max a b, 0)) hia (toCell ⟨Nat.min a b, Nat.max a b, ref, tag, 0⟩)
          rfl rfl rfl rfl hne
        rw [addM_none (I.absent (I.inv.none_of_empty (x := (Nat.min a b, Nat.max a b, 0)) hne)), ← upd_lift]
        exact this
      · intro j hj
        have hj' : h.nxt ≤ j := hj
        have : h.siz ≤ h.nxt := I.inv.hnxt
        have : bucket h.siz (Nat.min a b) (Nat.max a b) < h.siz := Hash.bucket_lt I.inv.hsiz
        show (if j = _ then _ else h.geom j : GCell).a = 0
        rw [if_neg (by omega)]
        exact I.zero j hj'
    · have hu : Used (toHash h) (bucket h.siz (Nat.min a b) (Nat.max a b)) := Or.inl ⟨Hash.bucket_lt I.inv.hsiz, hne⟩
      rw [if_pos hne, walk_eq I.inv _ _ _ _ hu]
      rcases I.inv.find_spec (x := (Nat.min a b, Nat.max a b, 0)) hx hne hm with ⟨q, hw, hq, hk⟩ | ⟨t, hw, ht, htn, htb, hM⟩
      · left
        refine ⟨h, ?_, ?_⟩
        · rw [show walkIns false (Nat.min a b, Nat.max a b, 0) (toHash h) (h.max + 2) (bucket h.siz (Nat.min a b) (Nat.max a b)) = _ from hw]
        · rw [addM_some (I.val hq hk)]; exact I
      · rw [show walkIns false (Nat.min a b, Nat.max a b, 0) (toHash h) (h.max + 2) (bucket h.siz (Nat.min a b) (Nat.max a b)) = _ from hw]
        simp only
        have A := I.inv.appendThenGrow_spec (x := (Nat.min a b, Nat.max a b, 0)) hia ht htn htb hM
          (fun c => { c with a := Nat.min a b, b := Nat.max a b, s := 0, k := enc (ref, tag) }) (enc (ref, tag))
          (fun c => ⟨rfl, rfl, rfl, rfl⟩) g hg
        rw [append_eq] at A
        cases hap : append h t (Nat.min a b) (Nat.max a b) ref tag g with
        | ub => rw [hap] at A; rcases A with ⟨h', e, _⟩ | ⟨e, _⟩ <;> cases e
        | fail =>
          rw [hap] at A
          rcases A with ⟨h', e, _⟩ | ⟨_, e⟩
          · cases e
          · exact Or.inr ⟨rfl, e⟩
        | ok h' =>
          rw [hap] at A
          rcases A with ⟨h'', e, J⟩ | ⟨e, _⟩
          · left
            refine ⟨h', rfl, ?_, ?_⟩
            · rw [addM_none (I.absent hM), ← upd_lift]
              rw [Outcome.ok.inj e]; exact J
            · have : t < h.nxt := by
                have : h.siz ≤ h.nxt := I.inv.hnxt
                rcases ht with ⟨q, _⟩ | ⟨_, q⟩
                · have : t < h.siz := q
                  omega
                · exact q
              exact append_zero this (I.inv.free h.nxt (Nat.le_refl _) I.inv.hmax) I.zero hap
          · cases e

theorem hNew_inv (hsiz hmax : Nat) (hle : hsiz ≤ hmax) : GInv (hNew hsiz hmax) fun _ => none := by
  constructor
  · have e1 : toHash (hNew hsiz hmax) = Hash.hashNew hsiz hmax := by
      unfold toHash hNew Hash.hashNew
      simp only [Hash.Hash.mk.injEq, true_and]
      funext k
      by_cases q : hsiz + 1 ≤ k ∧ k < hmax + 2
      · rw [if_pos q, if_pos q]; exact toCell_zero (k + 1)
      · rw [if_neg q, if_neg q]; exact toCell_zero'
    have e2 : lift (fun _ => none) = fun _ => none := by
      funext x; unfold lift; split <;> rfl
    rw [e1, e2]
    exact Hash.inv_hashNew false hsiz hmax hle
  · intro j _
    unfold hNew
    simp only
    split <;> rfl

/-- The edges in the order of the list: the first one of each pair stays. -/
theorem storeAll_spec {g : Nat → Option Nat} (hg : ∀ k n, g k = some n → 1 ≤ n) (l : List Edge)
    (hl : ∀ e ∈ l, e.a ≠ 0 ∧ e.b ≠ 0) (j : Nat) {h : HGeom} {m : Map} (I : GInv h m) :
    (∃ h', storeAll g l j h = .ok h' ∧ GInv h' fun x => (m x).or ((l.find? fun e => s(e.a, e.b) = x).map fun e => (e.ref, e.tag))) ∨
    (storeAll g l j h = .fail ∧ ∃ i, g i = none) := by
  induction l generalizing j h m with
  | nil =>
    left
    refine ⟨h, rfl, ?_⟩
    simpa using I
  | cons e l ih =>
    unfold storeAll
    rcases I.hEdge_spec (hl e (by simp)).1 (hl e (by simp)).2 e.ref e.tag (hg j) with ⟨h', e1, J⟩ | ⟨e1, e2⟩
    · rw [e1]
      simp only
      rcases ih (fun x hx => hl x (by simp [hx])) (j + 1) J with ⟨h'', e2, K⟩ | q
      · left
        refine ⟨h'', e2, ?_⟩
        convert K using 1
        funext x
        rw [List.find?_cons]
        unfold addM
        by_cases q : s(e.a, e.b) = x
        · simp only [q, decide_true, if_true]
          cases m x <;> rfl
        · simp only [q, decide_false, Ne.symm q, if_false]
      · exact Or.inr q
    · right
      rw [e1]
      exact ⟨rfl, j, e2⟩

end Mmg.GEdge
