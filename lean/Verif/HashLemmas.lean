/- Invariant of the hash table of `Verif.HashModel` and its preservation. -/
import Verif.HashModel
import Mathlib.Data.Nat.Init

namespace Mmg.Hash

/-- Key compared by the operations: for edges the third component is ignored. -/
def ckey (face : Bool) (c : Cell) : Nat × Nat × Nat := (c.a, c.b, if face then c.s else 0)

/-- Normalised keys: third component zero for edges. -/
def KeyOk (face : Bool) (x : Nat × Nat × Nat) : Prop := face = false → x.2.2 = 0

theorem cmatch_iff {face x c} (hx : KeyOk face x) : cmatch face x c = true ↔ ckey face c = x := by
  obtain ⟨x1, x2, x3⟩ := x
  cases face <;> simp [cmatch, ckey, KeyOk] at * 
  · subst hx; simp
  · simp [and_assoc]

/-- A cell holding an entry: non-empty bucket heads, and overflow cells below `nxt`. -/
def Used (h : Hash) (p : Nat) : Prop :=
  (p < h.siz ∧ (h.item p).a ≠ 0) ∨ (h.siz ≤ p ∧ p < h.nxt)

/-- `q` is reached from `p` by following `nxt` links. -/
inductive Reach (it : Nat → Cell) : Nat → Nat → Prop
  | refl (p) : Reach it p p
  | step {p q} : Reach it p q → (it q).nxt ≠ 0 → Reach it p (it q).nxt

def bk (h : Hash) (c : Cell) : Nat := bucket h.siz c.a c.b

/-- The table invariant, relating the table to an abstract map `M` on keys. -/
structure Inv (face : Bool) (h : Hash) (M : Nat × Nat × Nat → Option Nat) : Prop where
  hsiz : 0 < h.siz
  hnxt : h.siz ≤ h.nxt
  hmax : h.nxt < h.max
  free : ∀ j, h.nxt ≤ j → j < h.max → (h.item j).nxt = j + 1
  pos : ∀ p, Used h p → (h.item p).a ≠ 0
  head : ∀ p, p < h.siz → (h.item p).a ≠ 0 → bk h (h.item p) = p
  link : ∀ p, Used h p → (h.item p).nxt ≠ 0 →
    p < (h.item p).nxt ∧ h.siz ≤ (h.item p).nxt ∧ (h.item p).nxt < h.nxt ∧
      bk h (h.item (h.item p).nxt) = bk h (h.item p)
  reach : ∀ q, Used h q → Used h (bk h (h.item q)) ∧ Reach h.item (bk h (h.item q)) q
  uniq : ∀ p q, Used h p → Used h q → ckey face (h.item p) = ckey face (h.item q) → p = q
  sound : ∀ p, Used h p → M (ckey face (h.item p)) = some (h.item p).k
  complete : ∀ x v, M x = some v → ∃ p, Used h p ∧ ckey face (h.item p) = x

variable {face : Bool} {h : Hash} {M : Nat × Nat × Nat → Option Nat}

theorem Inv.used_lt (I : Inv face h M) {p} (hp : Used h p) : p < h.max := by
  have := I.hnxt; have := I.hmax
  rcases hp with ⟨h1, _⟩ | ⟨_, h1⟩ <;> omega

theorem Reach.trans' {it p q r} (h1 : Reach it p q) (h2 : Reach it q r) : Reach it p r := by
  induction h2 with
  | refl => exact h1
  | step _ hn ih => exact Reach.step ih hn

/-- forward decomposition -/
theorem Reach.cases_head {it p q} (h : Reach it p q) :
    p = q ∨ ((it p).nxt ≠ 0 ∧ Reach it (it p).nxt q) := by
  induction h with
  | refl => left; rfl
  | step hr hn ih =>
    right
    rcases ih with rfl | ⟨h1, h2⟩
    · exact ⟨hn, Reach.refl _⟩
    · exact ⟨h1, Reach.step h2 hn⟩

theorem Inv.next_used (I : Inv face h M) {p} (hp : Used h p) (hn : (h.item p).nxt ≠ 0) :
    Used h (h.item p).nxt := Or.inr ⟨(I.link p hp hn).2.1, (I.link p hp hn).2.2.1⟩

theorem Inv.reach_used (I : Inv face h M) {p q} (hp : Used h p) (hr : Reach h.item p q) :
    Used h q ∧ bk h (h.item q) = bk h (h.item p) ∧ p ≤ q := by
  induction hr with
  | refl => exact ⟨hp, rfl, Nat.le_refl _⟩
  | step _ hn ih =>
    have hl := I.link _ ih.1 hn
    exact ⟨I.next_used ih.1 hn, by rw [hl.2.2.2, ih.2.1], by omega⟩

theorem Inv.walkIns_spec (I : Inv face h M) {x} (hx : KeyOk face x) :
    ∀ fuel p, Used h p → h.max < p + fuel →
      (∃ q, walkIns face x h fuel p = .ok (.hit q) ∧ Used h q ∧ ckey face (h.item q) = x) ∨
      (∃ t, walkIns face x h fuel p = .ok (.tail t) ∧ Used h t ∧ Reach h.item p t ∧
        (h.item t).nxt = 0 ∧ ∀ q, Reach h.item p q → q = p ∨ ckey face (h.item q) ≠ x) := by
  intro fuel
  induction fuel with
  | zero => intro p hp hf; have := I.used_lt hp; omega
  | succ fuel ih =>
    intro p hp hf
    have hlt := I.used_lt hp
    by_cases hn : (h.item p).nxt = 0
    · right
      refine ⟨p, ?_, hp, Reach.refl _, hn, ?_⟩
      · simp [walkIns, hn]; omega
      · intro q hq
        rcases hq.cases_head with h1 | ⟨h1, _⟩
        · exact Or.inl h1.symm
        · exact absurd hn h1
    · have hl := I.link p hp hn
      have hu := I.next_used hp hn
      have hlt' := I.used_lt hu
      by_cases hm : ckey face (h.item (h.item p).nxt) = x
      · left
        refine ⟨_, ?_, hu, hm⟩
        have := (cmatch_iff (c := h.item (h.item p).nxt) hx).2 hm
        simp [walkIns, hn, this, hlt']; omega
      · have hm' : cmatch face x (h.item (h.item p).nxt) = false := by
          rw [Bool.eq_false_iff]; intro hc; exact hm ((cmatch_iff hx).1 hc)
        have hw : walkIns face x h (fuel + 1) p = walkIns face x h fuel (h.item p).nxt := by
          rw [walkIns]; simp [hn, hm', hlt', Nat.not_lt.2 (Nat.le_of_lt hlt)]
        rw [hw]
        rcases ih _ hu (by omega) with h1 | ⟨t, h1, h2, h3, h4, h5⟩
        · exact Or.inl h1
        · right
          refine ⟨t, h1, h2, ?_, h4, ?_⟩
          · exact Reach.trans' (Reach.step (Reach.refl p) hn) h3
          · intro q hq
            rcases hq.cases_head with h6 | ⟨_, h6⟩
            · exact Or.inl h6.symm
            · right
              rcases h5 q h6 with h7 | h7
              · rw [h7]; exact hm
              · exact h7

theorem Inv.walkGet_spec (I : Inv face h M) {x} (hx : KeyOk face x) :
    ∀ fuel p, Used h p → h.max < p + fuel →
      (∃ q, walkGet face x h fuel p = .ok (some (h.item q).k) ∧ Used h q ∧
        ckey face (h.item q) = x) ∨
      (walkGet face x h fuel p = .ok none ∧
        ∀ q, Reach h.item p q → q = p ∨ ckey face (h.item q) ≠ x) := by
  intro fuel
  induction fuel with
  | zero => intro p hp hf; have := I.used_lt hp; omega
  | succ fuel ih =>
    intro p hp hf
    have hlt := I.used_lt hp
    by_cases hn : (h.item p).nxt = 0
    · right
      refine ⟨?_, ?_⟩
      · simp [walkGet, hn]; omega
      · intro q hq
        rcases hq.cases_head with h1 | ⟨h1, _⟩
        · exact Or.inl h1.symm
        · exact absurd hn h1
    · have hl := I.link p hp hn
      have hu := I.next_used hp hn
      have hlt' := I.used_lt hu
      have e1 := Nat.not_lt.2 (Nat.le_of_lt hlt)
      have e2 := Nat.not_lt.2 (Nat.le_of_lt hlt')
      by_cases hm : ckey face (h.item (h.item p).nxt) = x
      · left
        refine ⟨_, ?_, hu, hm⟩
        have := (cmatch_iff (c := h.item (h.item p).nxt) hx).2 hm
        simp [walkGet, hn, this, e1, e2]
      · have hm' : cmatch face x (h.item (h.item p).nxt) = false := by
          rw [Bool.eq_false_iff]; intro hc; exact hm ((cmatch_iff hx).1 hc)
        have hw : walkGet face x h (fuel + 1) p = walkGet face x h fuel (h.item p).nxt := by
          rw [walkGet]; simp [hn, hm', e1, e2]
        rw [hw]
        rcases ih _ hu (by omega) with h1 | ⟨h1, h5⟩
        · exact Or.inl h1
        · right
          refine ⟨h1, ?_⟩
          intro q hq
          rcases hq.cases_head with h6 | ⟨_, h6⟩
          · exact Or.inl h6.symm
          · right
            rcases h5 q h6 with h7 | h7
            · rw [h7]; exact hm
            · exact h7

theorem Inv.walkUpd_spec (I : Inv false h M) {x} (hx : KeyOk false x) :
    ∀ fuel p, Used h p → h.max < p + fuel →
      (∃ q, walkUpd x h fuel p = .ok (some q) ∧ Used h q ∧ ckey false (h.item q) = x) ∨
      (walkUpd x h fuel p = .ok none ∧
        ∀ q, Reach h.item p q → ckey false (h.item q) ≠ x) := by
  intro fuel
  induction fuel with
  | zero => intro p hp hf; have := I.used_lt hp; omega
  | succ fuel ih =>
    intro p hp hf
    have hlt := I.used_lt hp
    have e1 := Nat.not_lt.2 (Nat.le_of_lt hlt)
    have hpos := I.pos p hp
    by_cases hm : ckey false (h.item p) = x
    · left
      refine ⟨p, ?_, hp, hm⟩
      have := (cmatch_iff (c := h.item p) hx).2 hm
      simp [walkUpd, hpos, this, e1]
    · have hm' : cmatch false x (h.item p) = false := by
        rw [Bool.eq_false_iff]; intro hc; exact hm ((cmatch_iff hx).1 hc)
      by_cases hn : (h.item p).nxt = 0
      · right
        refine ⟨?_, ?_⟩
        · simp [walkUpd, hn, hpos, hm', e1]
        · intro q hq
          rcases hq.cases_head with h1 | ⟨h1, _⟩
          · rw [← h1]; exact hm
          · exact absurd hn h1
      · have hl := I.link p hp hn
        have hu := I.next_used hp hn
        have hw : walkUpd x h (fuel + 1) p = walkUpd x h fuel (h.item p).nxt := by
          rw [walkUpd]; simp [hn, hm', e1, hpos]
        rw [hw]
        rcases ih _ hu (by omega) with h1 | ⟨h1, h5⟩
        · exact Or.inl h1
        · right
          refine ⟨h1, ?_⟩
          intro q hq
          rcases hq.cases_head with h6 | ⟨_, h6⟩
          · rw [← h6]; exact hm
          · exact h5 q h6

/-- If no cell reachable from the bucket head of `x` has key `x`, the map has no entry `x`. -/
theorem Inv.none_of_chain (I : Inv face h M) {x : Nat × Nat × Nat}
    (hno : ∀ q, Used h q → Reach h.item (bucket h.siz x.1 x.2.1) q → ckey face (h.item q) ≠ x) :
    M x = none := by
  cases hM : M x with
  | none => rfl
  | some v =>
    obtain ⟨p, hp, hk⟩ := I.complete x v hM
    have hr := (I.reach p hp).2
    have hb : bk h (h.item p) = bucket h.siz x.1 x.2.1 := by
      rw [← hk]; rfl
    rw [hb] at hr
    exact absurd hk (hno p hp hr)

theorem Inv.none_of_empty (I : Inv face h M) {x : Nat × Nat × Nat}
    (he : (h.item (bucket h.siz x.1 x.2.1)).a = 0) : M x = none := by
  cases hM : M x with
  | none => rfl
  | some v =>
    obtain ⟨p, hp, hk⟩ := I.complete x v hM
    have hr := (I.reach p hp).1
    have hb : bk h (h.item p) = bucket h.siz x.1 x.2.1 := by
      rw [← hk]; rfl
    rw [hb] at hr
    exact absurd he (I.pos _ hr)

theorem bucket_lt {siz a b : Nat} (h : 0 < siz) : bucket siz a b < siz := Nat.mod_lt _ h

/-- Abstract insertion. -/
def upd (M : Nat × Nat × Nat → Option Nat) (x : Nat × Nat × Nat) (v : Nat) :
    Nat × Nat × Nat → Option Nat := fun y => if y = x then some v else M y

/-- Changing the stored value of one used cell. -/
theorem Inv.setVal (I : Inv face h M) {p} (hp : Used h p) (v : Nat) :
    Inv face (h.put p { h.item p with k := v }) (upd M (ckey face (h.item p)) v) := by
  have hit : ∀ j, ((h.put p { h.item p with k := v }).item j).a = (h.item j).a ∧
      ((h.put p { h.item p with k := v }).item j).b = (h.item j).b ∧
      ((h.put p { h.item p with k := v }).item j).s = (h.item j).s ∧
      ((h.put p { h.item p with k := v }).item j).nxt = (h.item j).nxt := by
    intro j; by_cases hj : j = p
    · subst hj; simp [Hash.put]
    · simp [Hash.put, hj]
  generalize hh : h.put p { h.item p with k := v } = h' at *
  have hs : h'.siz = h.siz := by rw [← hh]; rfl
  have hm : h'.max = h.max := by rw [← hh]; rfl
  have hn : h'.nxt = h.nxt := by rw [← hh]; rfl
  have hk : ∀ j, (h'.item j).k = if j = p then v else (h.item j).k := by
    intro j; rw [← hh]; by_cases hj : j = p <;> simp [Hash.put, hj]
  have hU : ∀ j, Used h' j ↔ Used h j := by
    intro j; simp [Used, hs, hn, (hit j).1]
  have hB : ∀ j, bk h' (h'.item j) = bk h (h.item j) := by
    intro j; simp [bk, hs, (hit j).1, (hit j).2.1]
  have hC : ∀ j, ckey face (h'.item j) = ckey face (h.item j) := by
    intro j; simp [ckey, (hit j).1, (hit j).2.1, (hit j).2.2.1]
  have hR : ∀ q r, Reach h.item q r → Reach h'.item q r := by
    intro q r hr
    induction hr with
    | refl => exact Reach.refl _
    | step hr hne ih =>
      rename_i q'
      have := (hit q').2.2.2
      rw [← this]
      exact Reach.step ih (by rw [this]; exact hne)
  refine ⟨by rw [hs]; exact I.hsiz, by rw [hs, hn]; exact I.hnxt, by rw [hm, hn]; exact I.hmax,
    ?_, ?_, ?_, ?_, ?_, ?_, ?_, ?_⟩
  · intro j h1 h2
    rw [(hit j).2.2.2]; exact I.free j (by omega) (by omega)
  · intro j hj; rw [(hit j).1]; exact I.pos j ((hU j).1 hj)
  · intro j h1 h2; rw [hB]; rw [(hit j).1] at h2; exact I.head j (by omega) h2
  · intro j hj h2
    rw [(hit j).2.2.2] at *
    rw [hB, hB, hs, hn]
    exact I.link j ((hU j).1 hj) h2
  · intro q hq
    rw [hB, hU]
    have := I.reach q ((hU q).1 hq)
    exact ⟨this.1, hR _ _ this.2⟩
  · intro a b ha hb; rw [hC, hC]
    exact I.uniq a b ((hU a).1 ha) ((hU b).1 hb)
  · intro j hj
    have hj' := (hU j).1 hj
    rw [hC, hk]
    by_cases hjp : j = p
    · subst hjp; simp [upd]
    · have : ckey face (h.item j) ≠ ckey face (h.item p) := fun e => hjp (I.uniq j p hj' hp e)
      simp only [upd, if_neg this, if_neg hjp]
      exact I.sound j hj'
  · intro x w hw
    by_cases hx : x = ckey face (h.item p)
    · exact ⟨p, (hU p).2 hp, by rw [hC, hx]⟩
    · simp only [upd, if_neg hx] at hw
      obtain ⟨q, h1, h2⟩ := I.complete x w hw
      exact ⟨q, (hU q).2 h1, by rw [hC, h2]⟩

/-- Insertion in an empty bucket. -/
theorem Inv.insHead (I : Inv face h M) {x : Nat × Nat × Nat} (hpos : x.1 ≠ 0) (c : Cell)
    (hc : ckey face c = x) (hca : c.a = x.1) (hcb : c.b = x.2.1) (hcn : c.nxt = 0)
    (he : (h.item (bucket h.siz x.1 x.2.1)).a = 0) :
    Inv face (h.put (bucket h.siz x.1 x.2.1) c) (upd M x c.k) := by
  generalize hp : bucket h.siz x.1 x.2.1 = p at *
  have hplt : p < h.siz := by rw [← hp]; exact bucket_lt I.hsiz
  have hMx : M x = none := I.none_of_empty (by rw [hp]; exact he)
  have hnu : ¬ Used h p := by
    rintro (⟨_, h2⟩ | ⟨h1, _⟩)
    · exact h2 he
    · omega
  generalize hh : h.put p c = h' at *
  have hs : h'.siz = h.siz := by rw [← hh]; rfl
  have hm : h'.max = h.max := by rw [← hh]; rfl
  have hn : h'.nxt = h.nxt := by rw [← hh]; rfl
  have hip : h'.item p = c := by rw [← hh]; simp [Hash.put]
  have hio : ∀ j, j ≠ p → h'.item j = h.item j := by
    intro j hj; rw [← hh]; simp [Hash.put, hj]
  have hU : ∀ j, Used h' j ↔ j = p ∨ Used h j := by
    intro j
    by_cases hj : j = p
    · subst hj
      simp only [true_or, iff_true]
      left; rw [hs, hip, hca]; exact ⟨hplt, hpos⟩
    · simp [Used, hs, hn, hio j hj, hj]
  have hU' : ∀ j, Used h j → j ≠ p := by rintro j hj rfl; exact hnu hj
  have hbp : bk h' c = p := by simp [bk, hs, hca, hcb, hp]
  have hbo : ∀ j, Used h j → bk h' (h'.item j) = bk h (h.item j) := by
    intro j hj; simp [bk, hs, hio j (hU' j hj)]
  have hR : ∀ q r, Used h q → Reach h.item q r → Reach h'.item q r := by
    intro q r hq hr
    induction hr with
    | refl => exact Reach.refl _
    | step hr hne ih =>
      rename_i q'
      have hu := (I.reach_used hq hr).1
      have := hio q' (hU' q' hu)
      rw [← this]
      exact Reach.step ih (by rw [this]; exact hne)
  refine ⟨by rw [hs]; exact I.hsiz, by rw [hs, hn]; exact I.hnxt, by rw [hm, hn]; exact I.hmax,
    ?_, ?_, ?_, ?_, ?_, ?_, ?_, ?_⟩
  · intro j h1 h2
    have := I.hnxt
    rw [hio j (by omega)]; exact I.free j (by omega) (by omega)
  · intro j hj
    rcases (hU j).1 hj with rfl | hj
    · rw [hip, hca]; exact hpos
    · rw [hio j (hU' j hj)]; exact I.pos j hj
  · intro j h1 h2
    by_cases hj : j = p
    · subst hj; rw [hip]; exact hbp
    · rw [hio j hj] at *
      simp only [bk, hs]; exact I.head j (by omega) h2
  · intro j hj h2
    rcases (hU j).1 hj with rfl | hj
    · rw [hip, hcn] at h2; exact absurd rfl h2
    · rw [hio j (hU' j hj)] at *
      have hl := I.link j hj h2
      have hu := I.next_used hj h2
      rw [hs, hn]
      refine ⟨hl.1, hl.2.1, hl.2.2.1, ?_⟩
      rw [hbo _ hu]
      simp only [bk, hs]
      exact hl.2.2.2
  · intro q hq
    rcases (hU q).1 hq with rfl | hq'
    · rw [hip, hbp]; exact ⟨hq, Reach.refl _⟩
    · rw [hbo q hq']
      have := I.reach q hq'
      exact ⟨(hU _).2 (Or.inr this.1), hR _ _ this.1 this.2⟩
  · have hne : ∀ q, Used h q → ckey face (h.item q) ≠ x := by
      intro q hq e
      have := I.sound q hq
      rw [e, hMx] at this; simp at this
    intro a b ha hb e
    rcases (hU a).1 ha with rfl | ha'
    · rcases (hU b).1 hb with rfl | hb'
      · rfl
      · rw [hip, hc, hio b (hU' b hb')] at e
        exact absurd e.symm (hne b hb')
    · rcases (hU b).1 hb with rfl | hb'
      · rw [hip, hc, hio a (hU' a ha')] at e
        exact absurd e (hne a ha')
      · rw [hio a (hU' a ha'), hio b (hU' b hb')] at e
        exact I.uniq a b ha' hb' e
  · intro j hj
    rcases (hU j).1 hj with rfl | hj'
    · rw [hip, hc]; simp [upd]
    · rw [hio j (hU' j hj')]
      have hsd := I.sound j hj'
      have : ckey face (h.item j) ≠ x := by
        intro e; rw [e, hMx] at hsd; simp at hsd
      simp only [upd, if_neg this]; exact hsd
  · intro y w hw
    by_cases hy : y = x
    · exact ⟨p, (hU p).2 (Or.inl rfl), by rw [hip, hc, hy]⟩
    · simp only [upd, if_neg hy] at hw
      obtain ⟨q, h1, h2⟩ := I.complete y w hw
      exact ⟨q, (hU q).2 (Or.inr h1), by rw [hio q (hU' q h1), h2]⟩

/-- Append of a new cell `h.nxt` at the end `t` of the chain of `x`, in a table `h'` whose
other used cells are unchanged and whose free list is well formed. -/
theorem Inv.append (I : Inv face h M) {x : Nat × Nat × Nat} (hpos : x.1 ≠ 0)
    {t : Nat} (ht : Used h t) (htn : (h.item t).nxt = 0)
    (htb : bk h (h.item t) = bucket h.siz x.1 x.2.1)
    (hMx : M x = none) (h' : Hash)
    (hs : h'.siz = h.siz) (hn : h'.nxt = h.nxt + 1) (hm : h'.nxt < h'.max)
    (hfree : ∀ j, h'.nxt ≤ j → j < h'.max → (h'.item j).nxt = j + 1)
    (hit : h'.item t = { h.item t with nxt := h.nxt })
    (hio : ∀ j, j < h.nxt → j ≠ t → h'.item j = h.item j)
    (hnew : ckey face (h'.item h.nxt) = x) (hna : (h'.item h.nxt).a = x.1)
    (hnb : (h'.item h.nxt).b = x.2.1) (hnn : (h'.item h.nxt).nxt = 0)
    {v : Nat} (hnk : (h'.item h.nxt).k = v) :
    Inv face h' (upd M x v) := by
  subst hnk
  have hltn : ∀ j, Used h j → j < h.nxt := by
    have := I.hnxt
    rintro j (⟨h1, _⟩ | ⟨_, h1⟩) <;> omega
  have hab : ∀ j, j < h.nxt → (h'.item j).a = (h.item j).a ∧ (h'.item j).b = (h.item j).b ∧
      (h'.item j).s = (h.item j).s ∧ (h'.item j).k = (h.item j).k := by
    intro j hj
    by_cases e : j = t
    · subst e; rw [hit]; simp
    · rw [hio j hj e]; simp
  have hnext : ∀ j, j < h.nxt → (h'.item j).nxt = if j = t then h.nxt else (h.item j).nxt := by
    intro j hj
    by_cases e : j = t
    · subst e; rw [hit]; simp
    · rw [hio j hj e]; simp [e]
  have hU : ∀ j, Used h' j ↔ j = h.nxt ∨ Used h j := by
    intro j
    have := I.hnxt
    by_cases hj : j = h.nxt
    · subst hj
      simp only [true_or, iff_true]; right; omega
    · by_cases hj2 : j < h.nxt
      · simp [Used, hs, hn, (hab j hj2).1, hj]; omega
      · simp [Used, hs, hn, hj]; omega
  have hbo : ∀ j, j < h.nxt → bk h' (h'.item j) = bk h (h.item j) := by
    intro j hj; simp [bk, hs, hab j hj]
  have hbn : bk h' (h'.item h.nxt) = bucket h.siz x.1 x.2.1 := by
    simp [bk, hs, hna, hnb]
  have hco : ∀ j, j < h.nxt → ckey face (h'.item j) = ckey face (h.item j) := by
    intro j hj; simp [ckey, hab j hj]
  have hR : ∀ q r, Used h q → Reach h.item q r → Reach h'.item q r := by
    intro q r hq hr
    induction hr with
    | refl => exact Reach.refl _
    | step hr hne ih =>
      rename_i q'
      have hu := (I.reach_used hq hr).1
      have hqt : q' ≠ t := by rintro rfl; exact hne htn
      have := hnext q' (hltn q' hu)
      rw [if_neg hqt] at this
      rw [← this]
      exact Reach.step ih (by rw [this]; exact hne)
  have hne : ∀ q, Used h q → ckey face (h.item q) ≠ x := by
    intro q hq e
    have := I.sound q hq
    rw [e, hMx] at this; simp at this
  have hsz := I.hsiz
  have hsn := I.hnxt
  refine ⟨by rw [hs]; exact I.hsiz, by rw [hs, hn]; omega, hm, hfree, ?_, ?_, ?_, ?_, ?_, ?_, ?_⟩
  · intro j hj
    rcases (hU j).1 hj with rfl | hj
    · rw [hna]; exact hpos
    · rw [(hab j (hltn j hj)).1]; exact I.pos j hj
  · intro j h1 h2
    have hj : j < h.nxt := by omega
    rw [hbo j hj]; rw [(hab j hj).1] at h2
    exact I.head j (by omega) h2
  · intro j hj h2
    rcases (hU j).1 hj with rfl | hj
    · exact absurd hnn h2
    · have hjl := hltn j hj
      rw [hnext j hjl] at *
      by_cases e : j = t
      · subst e
        simp only [if_true] at *
        rw [hbn, hbo j hjl, htb, hs, hn]
        exact ⟨hjl, hsn, by omega, rfl⟩
      · simp only [if_neg e] at *
        have hl := I.link j hj h2
        rw [hs, hn, hbo j hjl, hbo _ hl.2.2.1]
        exact ⟨hl.1, hl.2.1, by omega, hl.2.2.2⟩
  · intro q hq
    rcases (hU q).1 hq with rfl | hq'
    · rw [hbn, ← htb]
      have hrt := I.reach t ht
      refine ⟨(hU _).2 (Or.inr hrt.1), ?_⟩
      have h1 := hR _ _ hrt.1 hrt.2
      have h2 := hnext t (hltn t ht)
      simp only [if_true] at h2
      have h3 := Reach.step h1 (by rw [h2]; omega)
      rw [h2] at h3; exact h3
    · rw [hbo q (hltn q hq')]
      have := I.reach q hq'
      exact ⟨(hU _).2 (Or.inr this.1), hR _ _ this.1 this.2⟩
  · intro a b ha hb e
    rcases (hU a).1 ha with rfl | ha'
    · rcases (hU b).1 hb with rfl | hb'
      · rfl
      · rw [hnew, hco b (hltn b hb')] at e
        exact absurd e.symm (hne b hb')
    · rcases (hU b).1 hb with rfl | hb'
      · rw [hnew, hco a (hltn a ha')] at e
        exact absurd e (hne a ha')
      · rw [hco a (hltn a ha'), hco b (hltn b hb')] at e
        exact I.uniq a b ha' hb' e
  · intro j hj
    rcases (hU j).1 hj with rfl | hj'
    · rw [hnew]; simp [upd]
    · rw [hco j (hltn j hj'), (hab j (hltn j hj')).2.2.2]
      simp only [upd, if_neg (hne j hj')]; exact I.sound j hj'
  · intro y w hw
    by_cases hy : y = x
    · exact ⟨h.nxt, (hU _).2 (Or.inl rfl), by rw [hnew, hy]⟩
    · simp only [upd, if_neg hy] at hw
      obtain ⟨q, h1, h2⟩ := I.complete y w hw
      exact ⟨q, (hU q).2 (Or.inr h1), by rw [hco q (hltn q h1), h2]⟩

theorem inv_hashNew (face : Bool) (hsiz hmax : Nat) (hle : hsiz ≤ hmax) :
    Inv face (hashNew hsiz hmax) (fun _ => none) := by
  have hu : ∀ p, ¬ Used (hashNew hsiz hmax) p := by
    rintro p (⟨h1, h2⟩ | ⟨h1, h2⟩)
    · simp only [hashNew] at *
      rw [if_neg (by omega)] at h2
      exact h2 rfl
    · simp only [hashNew] at *; omega
  refine ⟨by simp [hashNew], by simp [hashNew], by simp [hashNew]; omega, ?_, ?_, ?_, ?_, ?_, ?_,
    ?_, ?_⟩
  · intro j h1 h2
    simp only [hashNew] at *
    rw [if_pos (by omega)]
  · intro p hp; exact absurd hp (hu p)
  · intro p hp h2
    simp only [hashNew] at *
    rw [if_neg (by omega)] at h2
    exact absurd rfl h2
  · intro p hp; exact absurd hp (hu p)
  · intro p hp; exact absurd hp (hu p)
  · intro p q hp; exact absurd hp (hu p)
  · intro p hp; exact absurd hp (hu p)
  · intro x v hv; simp at hv


theorem keyOk_edge (a b : Nat) : KeyOk false (a, b, 0) := fun _ => rfl
theorem keyOk_face (x) : KeyOk true x := fun h => by cases h

theorem minA (a b : Nat) : Nat.min a b = if a ≤ b then a else b := rfl
theorem maxA (a b : Nat) : Nat.max a b = if a ≤ b then b else a := rfl

/-- The head case shared by the operations. -/
theorem Inv.bucket_ok (I : Inv face h M) (a b : Nat) :
    h.siz ≠ 0 ∧ ¬ h.max < bucket h.siz a b := by
  have h1 := bucket_lt (a := a) (b := b) I.hsiz
  have h2 := I.hsiz; have h3 := I.hnxt; have h4 := I.hmax
  omega

theorem Inv.fuel_ok (_I : Inv face h M) (p : Nat) : h.max < p + h.fuel := by
  simp only [Hash.fuel]; omega

theorem Inv.appendThenGrow_spec (I : Inv face h M) {x : Nat × Nat × Nat} (hpos : x.1 ≠ 0)
    {t : Nat} (ht : Used h t) (htn : (h.item t).nxt = 0)
    (htb : bk h (h.item t) = bucket h.siz x.1 x.2.1) (hMx : M x = none)
    (new : Cell → Cell) (v : Nat)
    (hnew : ∀ c, ckey face (new c) = x ∧ (new c).a = x.1 ∧ (new c).b = x.2.1 ∧ (new c).k = v)
    (g : Option Nat) (hg : ∀ n, g = some n → 1 ≤ n) :
    (∃ h', appendThenGrow h t new g = .ok h' ∧ Inv face h' (upd M x v)) ∨
    (appendThenGrow h t new g = .fail ∧ g = none) := by
  have htl : t < h.nxt := by
    have := I.hnxt
    rcases ht with ⟨h1, _⟩ | ⟨_, h1⟩ <;> omega
  have hmx := I.hmax
  have hne : h.nxt ≠ t := by omega
  have hfr := I.free h.nxt (Nat.le_refl _) hmx
  have hget : ((h.put t { h.item t with nxt := h.nxt }).item h.nxt) = h.item h.nxt := by
    simp [Hash.put, hne]
  have hck : ∀ c, ckey face { new c with nxt := 0 } = x := fun c => (hnew c).1
  by_cases hcap : h.max ≤ h.nxt + 1
  · cases g with
    | none =>
      right
      refine ⟨?_, rfl⟩
      simp only [appendThenGrow, hget, hfr]
      rw [if_neg (by simp [Hash.put]; omega), if_pos (by simp [Hash.put]; omega)]
    | some n =>
      left
      have hn1 := hg n rfl
      refine ⟨_, by
        simp only [appendThenGrow, hget, hfr]
        rw [if_neg (by simp [Hash.put]; omega), if_pos (by simp [Hash.put]; omega)], ?_⟩
      refine I.append (h' := _) hpos ht htn htb hMx ?_ ?_ ?_ ?_ ?_ ?_ ?_ ?_ ?_ ?_ ?_
      · rfl
      · simp [Hash.put, Hash.grow, Hash.relink]
      · simp [Hash.put, Hash.grow, Hash.relink]; omega
      · intro j h1 h2
        simp only [Hash.put, Hash.grow, Hash.relink] at h1 h2 ⊢
        simp [h1, h2]
      · have e1 : ¬ (h.nxt + 1 ≤ t) := by omega
        have e2 : ¬ (h.max < t) := by omega
        simp [Hash.put, Hash.grow, Hash.relink, e1, e2, hne.symm]
      · intro j h1 h2
        have e1 : ¬ (h.nxt + 1 ≤ j) := by omega
        have e2 : ¬ (h.max < j) := by omega
        have e3 : j ≠ h.nxt := by omega
        simp [Hash.put, Hash.grow, Hash.relink, e1, e2, e3, h2]
      all_goals
        have e2 : ¬ (h.max < h.nxt) := by omega
        have e3 : ¬ (h.nxt + 1 ≤ h.nxt ∧ h.nxt < h.max + n) := by omega
        simp only [Hash.put, Hash.grow, Hash.relink, if_neg e2, if_neg e3, if_true]
        try first | exact hck _ | exact (hnew _).2.1 | exact (hnew _).2.2.1 | exact (hnew _).2.2.2
  · left
    refine ⟨_, by
      simp only [appendThenGrow, hget, hfr]
      rw [if_neg (by simp [Hash.put]; omega), if_neg (by simp [Hash.put]; omega)], ?_⟩
    refine I.append (h' := _) hpos ht htn htb hMx ?_ ?_ ?_ ?_ ?_ ?_ ?_ ?_ ?_ ?_ ?_
    · rfl
    · simp [Hash.put]
    · simp [Hash.put]; omega
    · intro j h1 h2
      simp [Hash.put] at *
      rw [if_neg (by omega), if_neg (by omega)]
      exact I.free j (by omega) h2
    · simp [Hash.put]
      intro h1; omega
    · intro j h1 h2
      simp [Hash.put, h2]
      intro h1; omega
    all_goals
      simp only [Hash.put, if_true]
      try first | exact hck _ | exact (hnew _).2.1 | exact (hnew _).2.2.1 | exact (hnew _).2.2.2

theorem Inv.get_of_mem (I : Inv face h M) {x p} (hp : Used h p) (hk : ckey face (h.item p) = x) :
    M x = some (h.item p).k := by rw [← hk]; exact I.sound p hp

/-- What the walk of an insertion in a non-empty bucket finds. -/
theorem Inv.find_spec (I : Inv face h M) {x : Nat × Nat × Nat} (hx : KeyOk face x)
    (hne : (h.item (bucket h.siz x.1 x.2.1)).a ≠ 0)
    (hnm : ckey face (h.item (bucket h.siz x.1 x.2.1)) ≠ x) :
    (∃ q, walkIns face x h h.fuel (bucket h.siz x.1 x.2.1) = .ok (.hit q) ∧ Used h q ∧
      ckey face (h.item q) = x) ∨
    (∃ t, walkIns face x h h.fuel (bucket h.siz x.1 x.2.1) = .ok (.tail t) ∧ Used h t ∧
      (h.item t).nxt = 0 ∧ bk h (h.item t) = bucket h.siz x.1 x.2.1 ∧ M x = none) := by
  have hlt := bucket_lt (a := x.1) (b := x.2.1) I.hsiz
  have hu : Used h (bucket h.siz x.1 x.2.1) := Or.inl ⟨hlt, hne⟩
  rcases I.walkIns_spec hx h.fuel _ hu (I.fuel_ok _) with h1 | ⟨t, h1, h2, h3, h4, h5⟩
  · exact Or.inl h1
  · right
    refine ⟨t, h1, h2, h4, ?_, ?_⟩
    · rw [(I.reach_used hu h3).2.1]; exact I.head _ hlt hne
    · apply I.none_of_chain
      intro q hq hr
      rcases h5 q hr with rfl | h6
      · exact hnm
      · exact h6

theorem Inv.hashEdge_spec (I : Inv false h M) {a b : Nat} (ha : a ≠ 0) (hb : b ≠ 0) (k : Nat)
    (g : Option Nat) (hg : ∀ n, g = some n → 1 ≤ n) :
    (∃ v, M (Nat.min a b, Nat.max a b, 0) = some v ∧ hashEdge h a b k g = .ok (h, 1)) ∨
    (M (Nat.min a b, Nat.max a b, 0) = none ∧
      ((∃ h', hashEdge h a b k g = .ok (h', 2) ∧
          Inv false h' (upd M (Nat.min a b, Nat.max a b, 0) k)) ∨
        (hashEdge h a b k g = .fail ∧ g = none))) := by
  have hia : Nat.min a b ≠ 0 := by rw [minA]; split <;> assumption
  generalize hA : Nat.min a b = ia at *
  generalize hB : Nat.max a b = ib at *
  have hbo := I.bucket_ok ia ib
  have hx := keyOk_edge ia ib
  unfold hashEdge
  simp only [hA, hB, if_neg hbo.1, if_neg hbo.2]
  by_cases hm : ckey false (h.item (bucket h.siz ia ib)) = (ia, ib, 0)
  · left
    have hu : Used h (bucket h.siz ia ib) := by
      left; refine ⟨bucket_lt I.hsiz, ?_⟩
      have : (h.item (bucket h.siz ia ib)).a = ia := congrArg Prod.fst hm
      rw [this]; exact hia
    exact ⟨_, I.get_of_mem hu hm, by rw [if_pos ((cmatch_iff hx).2 hm)]⟩
  · rw [if_neg (fun hc => hm ((cmatch_iff hx).1 hc))]
    by_cases hne : (h.item (bucket h.siz ia ib)).a = 0
    · right
      refine ⟨I.none_of_empty (x := (ia, ib, 0)) hne, Or.inl ?_⟩
      simp only [hne, ne_eq, not_true_eq_false, if_false]
      refine ⟨_, rfl, ?_⟩
      exact I.insHead (x := (ia, ib, 0)) hia _ rfl rfl rfl rfl hne
    · simp only [ne_eq, hne, not_false_eq_true, if_true]
      rcases I.find_spec (x := (ia, ib, 0)) hx hne hm with ⟨q, hw, hu, hk⟩ |
        ⟨t, hw, ht, htn, htb, hM⟩
      · left
        exact ⟨_, I.get_of_mem hu hk, by simp only [] at hw; rw [hw]⟩
      · right
        refine ⟨hM, ?_⟩
        simp only [] at hw; rw [hw]
        simp only []
        have htl : t < h.nxt := by
          have := I.hnxt
          rcases ht with ⟨h1, _⟩ | ⟨_, h1⟩ <;> omega
        have hmx := I.hmax
        have hne' : h.nxt ≠ t := by omega
        have hfr := I.free h.nxt (Nat.le_refl _) hmx
        by_cases hcap : h.max ≤ h.nxt + 1
        · rw [if_pos hcap]
          cases g with
          | none => right; exact ⟨rfl, rfl⟩
          | some n =>
            left
            have hn1 := hg n rfl
            have hnm : ¬ h.max < h.nxt := by omega
            have hself : ¬ (h.nxt + 1 ≤ h.nxt ∧ h.nxt < h.max + n) := by omega
            refine ⟨_, by
              simp only []
              rw [if_neg (by simp [Hash.put, Hash.grow]; omega)], ?_⟩
            refine I.append (x := (ia, ib, 0)) (h' := _) hia ht htn htb hM ?_ ?_ ?_ ?_ ?_ ?_ ?_ ?_
              ?_ ?_ ?_
            · rfl
            · simp [Hash.put, Hash.grow, Hash.relink, hne', hfr, hnm, hself]
            · simp [Hash.put, Hash.grow, Hash.relink, hne', hfr, hnm, hself]; omega
            · intro j h1 h2
              simp [Hash.put, Hash.grow, Hash.relink, hne', hfr, hnm, hself] at h1 h2
              have e1 : j ≠ h.nxt := by omega
              simp [Hash.put, Hash.grow, Hash.relink, hne', hfr, hnm, h1, h2, e1, hself]
            · have e1 : ¬ (h.nxt + 1 ≤ t) := by omega
              have e2 : ¬ (h.max < t) := by omega
              simp [Hash.put, Hash.grow, Hash.relink, e1, e2, hne'.symm, hne', hfr, hnm, hself]
            · intro j h1 h2
              have e1 : ¬ (h.nxt + 1 ≤ j) := by omega
              have e2 : ¬ (h.max < j) := by omega
              have e3 : j ≠ h.nxt := by omega
              simp [Hash.put, Hash.grow, Hash.relink, e1, e2, e3, h2, hne', hfr, hnm, hself]
            all_goals
              simp [Hash.put, Hash.grow, Hash.relink, ckey]
        · rw [if_neg hcap]
          left
          refine ⟨_, rfl, ?_⟩
          refine I.append (x := (ia, ib, 0)) (h' := _) hia ht htn htb hM ?_ ?_ ?_ ?_ ?_ ?_ ?_ ?_
              ?_ ?_ ?_
          · rfl
          · simp [Hash.put, hne', hfr]
          · simp [Hash.put, hne', hfr]; omega
          · intro j h1 h2
            simp [Hash.put, hne', hfr] at *
            rw [if_neg (by omega), if_neg (by omega)]
            exact I.free j (by omega) h2
          · simp [Hash.put]
            intro h1; omega
          · intro j h1 h2
            simp [Hash.put, h2]
            intro h1; omega
          all_goals simp [Hash.put, ckey]

theorem Inv.hashUpdate_spec (I : Inv false h M) {a b : Nat} (k : Nat) :
    (∃ v h', M (Nat.min a b, Nat.max a b, 0) = some v ∧ hashUpdate h a b k = .ok (h', 1) ∧
      Inv false h' (upd M (Nat.min a b, Nat.max a b, 0) k)) ∨
    (M (Nat.min a b, Nat.max a b, 0) = none ∧ hashUpdate h a b k = .ok (h, 0)) := by
  generalize hA : Nat.min a b = ia at *
  generalize hB : Nat.max a b = ib at *
  have hbo := I.bucket_ok ia ib
  have hx := keyOk_edge ia ib
  unfold hashUpdate
  simp only [hA, hB, if_neg hbo.1]
  by_cases hne : (h.item (bucket h.siz ia ib)).a = 0
  · right
    refine ⟨I.none_of_empty (x := (ia, ib, 0)) hne, ?_⟩
    have : walkUpd (ia, ib, 0) h h.fuel (bucket h.siz ia ib) = .ok none := by
      simp only [Hash.fuel]
      rw [walkUpd]; simp [hne, hbo.2]
    rw [this]
  · have hu : Used h (bucket h.siz ia ib) := Or.inl ⟨bucket_lt I.hsiz, hne⟩
    rcases I.walkUpd_spec hx h.fuel _ hu (I.fuel_ok _) with ⟨q, hw, hq, hk⟩ | ⟨hw, hno⟩
    · left
      refine ⟨_, _, I.get_of_mem hq hk, by rw [hw], ?_⟩
      rw [← hk]; exact I.setVal hq k
    · right
      exact ⟨I.none_of_chain (x := (ia, ib, 0)) (fun q _ hr => hno q hr), by rw [hw]⟩

theorem Inv.hashEdgeTag_spec (I : Inv false h M) {a b : Nat} (ha : a ≠ 0) (hb : b ≠ 0) (tag : Nat)
    (g : Option Nat) (hg : ∀ n, g = some n → 1 ≤ n) :
    (∃ v h', M (Nat.min a b, Nat.max a b, 0) = some v ∧
      hashEdgeTag h a b tag g = .ok (h', v ||| tag) ∧
      Inv false h' (upd M (Nat.min a b, Nat.max a b, 0) (v ||| tag))) ∨
    (M (Nat.min a b, Nat.max a b, 0) = none ∧
      ((∃ h', hashEdgeTag h a b tag g = .ok (h', tag) ∧
          Inv false h' (upd M (Nat.min a b, Nat.max a b, 0) tag)) ∨
        (hashEdgeTag h a b tag g = .fail ∧ g = none))) := by
  have hia : Nat.min a b ≠ 0 := by rw [minA]; split <;> assumption
  generalize hA : Nat.min a b = ia at *
  generalize hB : Nat.max a b = ib at *
  have hbo := I.bucket_ok ia ib
  have hx := keyOk_edge ia ib
  unfold hashEdgeTag
  simp only [hA, hB, if_neg hbo.1, if_neg hbo.2]
  by_cases hne : (h.item (bucket h.siz ia ib)).a = 0
  · right
    refine ⟨I.none_of_empty (x := (ia, ib, 0)) hne, Or.inl ?_⟩
    simp only [hne, ne_eq, not_true_eq_false, if_false]
    refine ⟨_, rfl, ?_⟩
    exact I.insHead (x := (ia, ib, 0)) hia _ rfl rfl rfl rfl hne
  · simp only [ne_eq, hne, not_false_eq_true, if_true]
    have hu : Used h (bucket h.siz ia ib) := Or.inl ⟨bucket_lt I.hsiz, hne⟩
    by_cases hm : ckey false (h.item (bucket h.siz ia ib)) = (ia, ib, 0)
    · left
      refine ⟨_, _, I.get_of_mem hu hm, by rw [if_pos ((cmatch_iff hx).2 hm)], ?_⟩
      have := I.setVal hu ((h.item (bucket h.siz ia ib)).k ||| tag)
      rw [hm] at this; exact this
    · rw [if_neg (fun hc => hm ((cmatch_iff hx).1 hc))]
      rcases I.find_spec (x := (ia, ib, 0)) hx hne hm with ⟨q, hw, hu, hk⟩ |
        ⟨t, hw, ht, htn, htb, hM⟩
      · left
        simp only [] at hw; rw [hw]
        refine ⟨_, _, I.get_of_mem hu hk, rfl, ?_⟩
        have := I.setVal hu ((h.item q).k ||| tag)
        rw [hk] at this; exact this
      · right
        refine ⟨hM, ?_⟩
        simp only [] at hw; rw [hw]
        simp only []
        rcases I.appendThenGrow_spec (x := (ia, ib, 0)) hia ht htn htb hM
          (fun c => { c with a := ia, b := ib, k := tag }) tag
          (fun c => ⟨rfl, rfl, rfl, rfl⟩) g hg with ⟨h', e1, e2⟩ | ⟨e1, e2⟩
        · left; exact ⟨h', by rw [e1], e2⟩
        · right; exact ⟨by rw [e1], e2⟩

theorem Inv.hashGet_spec (I : Inv false h M) (a b : Nat) :
    hashGet h a b = .ok ((M (Nat.min a b, Nat.max a b, 0)).getD 0) := by
  generalize hA : Nat.min a b = ia at *
  generalize hB : Nat.max a b = ib at *
  have hbo := I.bucket_ok ia ib
  have hx := keyOk_edge ia ib
  unfold hashGet
  simp only [hA, hB, if_neg hbo.1, if_neg hbo.2]
  by_cases hne : (h.item (bucket h.siz ia ib)).a = 0
  · rw [if_pos hne, I.none_of_empty (x := (ia, ib, 0)) hne]; rfl
  · rw [if_neg hne]
    have hu : Used h (bucket h.siz ia ib) := Or.inl ⟨bucket_lt I.hsiz, hne⟩
    by_cases hm : ckey false (h.item (bucket h.siz ia ib)) = (ia, ib, 0)
    · rw [if_pos ((cmatch_iff hx).2 hm), I.get_of_mem hu hm]; rfl
    · rw [if_neg (fun hc => hm ((cmatch_iff hx).1 hc))]
      rcases I.walkGet_spec hx h.fuel _ hu (I.fuel_ok _) with ⟨q, hw, hq, hk⟩ | ⟨hw, hno⟩
      · rw [hw, I.get_of_mem hq hk]; rfl
      · rw [hw]
        rw [I.none_of_chain (x := (ia, ib, 0)) (fun q _ hr => by
          rcases hno q hr with rfl | h1
          · exact hm
          · exact h1)]
        rfl

theorem Inv.hashFace_spec (I : Inv true h M) {a b c : Nat} (ha : a ≠ 0) (hb : b ≠ 0) (hc : c ≠ 0)
    (k : Nat) (g : Option Nat) (hg : ∀ n, g = some n → 1 ≤ n) :
    (∃ v, M (faceKey a b c) = some v ∧ hashFace h a b c k g = .ok (h, (v : Int))) ∨
    (M (faceKey a b c) = none ∧
      ((∃ h', hashFace h a b c k g = .ok (h', -1) ∧ Inv true h' (upd M (faceKey a b c) k)) ∨
        (hashFace h a b c k g = .fail ∧ g = none))) := by
  have hia : (faceKey a b c).1 ≠ 0 := by
    simp only [faceKey, minA]; split <;> split <;> assumption
  unfold hashFace
  generalize faceKey a b c = x at *
  have hbo := I.bucket_ok x.1 x.2.1
  have hx := keyOk_face x
  simp only [if_neg hbo.1, if_neg hbo.2]
  by_cases hne : (h.item (bucket h.siz x.1 x.2.1)).a = 0
  · right
    refine ⟨I.none_of_empty (x := x) hne, Or.inl ?_⟩
    simp only [hne, ne_eq, not_true_eq_false, if_false]
    refine ⟨_, rfl, ?_⟩
    exact I.insHead (x := x) hia ⟨x.1, x.2.1, x.2.2, k, 0⟩ rfl rfl rfl rfl hne
  · simp only [ne_eq, hne, not_false_eq_true, if_true]
    have hu : Used h (bucket h.siz x.1 x.2.1) := Or.inl ⟨bucket_lt I.hsiz, hne⟩
    by_cases hm : ckey true (h.item (bucket h.siz x.1 x.2.1)) = x
    · left
      exact ⟨_, I.get_of_mem hu hm, by rw [if_pos ((cmatch_iff hx).2 hm)]⟩
    · rw [if_neg (fun hc => hm ((cmatch_iff hx).1 hc))]
      rcases I.find_spec (x := x) hx hne hm with ⟨q, hw, hu, hk⟩ | ⟨t, hw, ht, htn, htb, hM⟩
      · left
        exact ⟨_, I.get_of_mem hu hk, by rw [hw]⟩
      · right
        refine ⟨hM, ?_⟩
        rw [hw]
        simp only []
        rcases I.appendThenGrow_spec (x := x) hia ht htn htb hM
          (fun c => { c with a := x.1, b := x.2.1, s := x.2.2, k := k }) k
          (fun c => ⟨rfl, rfl, rfl, rfl⟩) g hg with ⟨h', e1, e2⟩ | ⟨e1, e2⟩
        · left; exact ⟨h', by rw [e1], e2⟩
        · right; exact ⟨by rw [e1], e2⟩

theorem Inv.hashGetFace_spec (I : Inv true h M) (a b c : Nat) :
    hashGetFace h a b c = .ok ((M (faceKey a b c)).getD 0) := by
  unfold hashGetFace
  generalize faceKey a b c = x at *
  have hbo := I.bucket_ok x.1 x.2.1
  have hx := keyOk_face x
  simp only [if_neg hbo.1, if_neg hbo.2]
  by_cases hne : (h.item (bucket h.siz x.1 x.2.1)).a = 0
  · rw [if_neg (by simp [hne]), I.none_of_empty (x := x) hne]; rfl
  · rw [if_pos hne]
    have hu : Used h (bucket h.siz x.1 x.2.1) := Or.inl ⟨bucket_lt I.hsiz, hne⟩
    by_cases hm : ckey true (h.item (bucket h.siz x.1 x.2.1)) = x
    · rw [if_pos ((cmatch_iff hx).2 hm), I.get_of_mem hu hm]; rfl
    · rw [if_neg (fun hc => hm ((cmatch_iff hx).1 hc))]
      rcases I.walkGet_spec hx h.fuel _ hu (I.fuel_ok _) with ⟨q, hw, hq, hk⟩ | ⟨hw, hno⟩
      · rw [hw, I.get_of_mem hq hk]; rfl
      · rw [hw]
        rw [I.none_of_chain (x := x) (fun q _ hr => by
          rcases hno q hr with rfl | h1
          · exact hm
          · exact h1)]
        rfl

end Mmg.Hash
