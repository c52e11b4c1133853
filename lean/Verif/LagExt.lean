/- C93: the part of the mesh on which the displacement is extended. -/
import Verif.LagModel
import Mathlib.Data.List.Basic
import Mathlib.Data.List.Induction

namespace Mmg.Lag

open Mmg.Hash (Outcome)

/-! ### Specification -/

/-- Elements that are at most `n` steps through sides away from an element with a side of the moving boundary. -/
inductive Near (T : Top) : Nat → Nat → Prop
  | src {n k : Nat} : 1 ≤ k → k ≤ T.ne → T.eok k = true → T.src k = true → Near T n k
  | step {n k j : Nat} : Near T n k → j ∈ T.nb k → j ≠ 0 → T.eok j = true → Near T (n + 1) j

theorem Near.mono {T : Top} {n k : Nat} (h : Near T n k) : Near T (n + 1) k := by
  induction h with
  | src a b c d => exact .src a b c d
  | step _ a b c ih => exact .step ih a b c

/-- `perm` numbers exactly the vertices of `A`, from 1 to `npf`. -/
structure Num (A : Nat → Prop) (perm : Nat → Nat) (npf : Nat) : Prop where
  iff : ∀ x, perm x ≠ 0 ↔ A x
  le : ∀ x, perm x ≤ npf
  inj : ∀ x y, perm x ≠ 0 → perm x = perm y → x = y
  surj : ∀ i, 1 ≤ i → i ≤ npf → ∃ x, perm x = i

theorem Num.congr {A B : Nat → Prop} {perm : Nat → Nat} {npf : Nat} (h : Num A perm npf) (e : ∀ x, A x ↔ B x) : Num B perm npf :=
  ⟨fun x => (h.iff x).trans (e x), h.le, h.inj, h.surj⟩

theorem seeV_num {A : Nat → Prop} {p : (Nat → Nat) × Nat} (h : Num A p.1 p.2) (x : Nat) :
    Num (fun y => A y ∨ y = x) (seeV p x).1 (seeV p x).2 := by
  unfold seeV
  by_cases c : p.1 x = 0
  · rw [if_pos c]
    refine ⟨?_, ?_, ?_, ?_⟩
    · intro y
      by_cases e : y = x
      · simp [e]
      · show (if y = x then p.2 + 1 else p.1 y) ≠ 0 ↔ _
        rw [if_neg e, h.iff y]
        simp [e]
    · intro y
      by_cases e : y = x
      · simp [e]
      · simp only [if_neg e]
        have := h.le y
        omega
    · intro y z hy hz
      by_cases e : y = x
      · by_cases e' : z = x
        · rw [e, e']
        · simp only [if_pos e, if_neg e'] at hz
          have := h.le z
          omega
      · by_cases e' : z = x
        · simp only [if_neg e, if_pos e'] at hz
          have := h.le y
          omega
        · simp only [if_neg e, if_neg e'] at hy hz
          exact h.inj y z hy hz
    · intro i h1 h2
      by_cases e : i = p.2 + 1
      · exact ⟨x, by simp [e]⟩
      · obtain ⟨y, hy⟩ := h.surj i h1 (by simp only at h2; omega)
        refine ⟨y, ?_⟩
        have : y ≠ x := by
          intro q
          rw [q, c] at hy
          omega
        simp only [if_neg this, hy]
  · rw [if_neg c]
    refine h.congr fun y => ?_
    constructor
    · exact .inl
    · rintro (q | rfl)
      · exact q
      · exact (h.iff y).1 c

theorem seeV_fold : ∀ (l : List Nat) (A : Nat → Prop) (p : (Nat → Nat) × Nat), Num A p.1 p.2 →
    Num (fun y => A y ∨ y ∈ l) (l.foldl seeV p).1 (l.foldl seeV p).2 := by
  intro l
  induction l with
  | nil => intro A p h; exact h.congr fun y => by simp
  | cons x l ih =>
    intro A p h
    exact (ih _ _ (seeV_num h x)).congr fun y => by simp [or_assoc]

/-- Invariant of the packing. -/
structure PInv (T : Top) (p : Pk) : Prop where
  nodup : p.list.Nodup
  flag : ∀ k, p.flag k = true ↔ k ∈ p.list
  num : Num (fun x => ∃ k ∈ p.list, x ∈ T.vs k) p.perm p.npf

theorem put_inv {T : Top} {p : Pk} (h : PInv T p) {k : Nat} (hk : k ∉ p.list) : PInv T (put T p k) := by
  refine ⟨?_, ?_, ?_⟩
  · show (p.list ++ [k]).Nodup
    rw [List.nodup_append]
    refine ⟨h.nodup, by simp, ?_⟩
    intro a ha b hb
    rw [List.mem_singleton.1 hb]
    rintro rfl
    exact hk ha
  · intro j
    show (if j = k then true else p.flag j) = true ↔ j ∈ p.list ++ [k]
    by_cases e : j = k
    · simp [e]
    · rw [if_neg e, h.flag j]; simp [e]
  · exact (seeV_fold (T.vs k) _ (p.perm, p.npf) h.num).congr fun x => by
      show _ ↔ ∃ j ∈ p.list ++ [k], x ∈ T.vs j
      constructor
      · rintro (⟨j, a, b⟩ | a)
        · exact ⟨j, by simp [a], b⟩
        · exact ⟨k, by simp, a⟩
      · rintro ⟨j, a, b⟩
        rcases List.mem_append.1 a with a | a
        · exact .inl ⟨j, a, b⟩
        · rw [List.mem_singleton.1 a] at b
          exact .inr b

theorem puts_inv {T : Top} : ∀ (l : List Nat) (p : Pk), PInv T p → l.Nodup → (∀ k ∈ l, k ∉ p.list) →
    PInv T (l.foldl (put T) p) ∧ (l.foldl (put T) p).list = p.list ++ l := by
  intro l
  induction l with
  | nil => intro p h _ _; exact ⟨h, by simp⟩
  | cons k l ih =>
    intro p h hn hd
    rw [List.nodup_cons] at hn
    obtain ⟨a, b⟩ := ih (put T p k) (put_inv h (hd k (by simp))) hn.2 (by
      intro j hj
      show j ∉ p.list ++ [k]
      intro q
      rcases List.mem_append.1 q with q | q
      · exact hd j (by simp [hj]) q
      · rw [List.mem_singleton.1 q] at hj
        exact hn.1 hj)
    refine ⟨a, ?_⟩
    rw [List.foldl_cons, b]
    show (p.list ++ [k]) ++ l = _
    simp

theorem sources_inv (T : Top) : PInv T (sources T) ∧ ∀ k, k ∈ (sources T).list ↔ Near T 0 k := by
  have h0 : PInv T ⟨[], fun _ => false, fun _ => 0, 0⟩ :=
    ⟨List.nodup_nil, fun k => by simp, ⟨fun x => by simp, fun x => by simp, fun x y h => absurd rfl h, fun i a b => by simp at b; omega⟩⟩
  obtain ⟨a, b⟩ := puts_inv ((List.range' 1 T.ne).filter fun k => T.eok k && T.src k) _ h0
    ((show (List.range' 1 T.ne).Nodup from List.nodup_range').filter _) (fun k _ => by simp)
  refine ⟨a, fun k => ?_⟩
  unfold sources
  rw [b]
  simp only [List.nil_append, List.mem_filter, List.mem_range'_1, Bool.and_eq_true]
  constructor
  · rintro ⟨⟨h1, h2⟩, h3, h4⟩
    exact .src h1 (by omega) h3 h4
  · intro h
    cases h with
    | src h1 h2 h3 h4 => exact ⟨⟨h1, by omega⟩, h3, h4⟩

/-- What is seen from a list of elements. -/
theorem see_fold {T : Top} : ∀ (l : List Nat) (p : Pk), PInv T p →
    PInv T (l.foldl (seeE T) p) ∧ (∃ m, (l.foldl (seeE T) p).list = p.list ++ m ∧ ∀ j ∈ m, j ∈ l ∧ j ≠ 0 ∧ T.eok j = true) ∧
      ∀ j ∈ l, j ≠ 0 → T.eok j = true → j ∈ (l.foldl (seeE T) p).list := by
  intro l
  induction l with
  | nil => intro p h; exact ⟨h, ⟨[], by simp, fun j hj => absurd hj (by simp)⟩, fun j hj => absurd hj (by simp)⟩
  | cons j l ih =>
    intro p h
    rw [List.foldl_cons]
    have hs : PInv T (seeE T p j) ∧ (∃ m, (seeE T p j).list = p.list ++ m ∧ ∀ i ∈ m, i = j ∧ j ≠ 0 ∧ T.eok j = true) ∧
        (j ≠ 0 → T.eok j = true → j ∈ (seeE T p j).list) := by
      unfold seeE
      by_cases c : j ≠ 0 ∧ T.eok j = true ∧ p.flag j = false
      · rw [if_pos c]
        have hn : j ∉ p.list := fun q => by
          rw [← h.flag] at q
          rw [c.2.2] at q
          cases q
        exact ⟨put_inv h hn, ⟨[j], rfl, fun i hi => ⟨List.mem_singleton.1 hi, c.1, c.2.1⟩⟩, fun _ _ => by show j ∈ p.list ++ [j]; simp⟩
      · rw [if_neg c]
        refine ⟨h, ⟨[], by simp, fun i hi => absurd hi (by simp)⟩, fun a b => ?_⟩
        rw [← h.flag]
        by_contra q
        exact c ⟨a, b, by simpa using q⟩
    obtain ⟨a1, ⟨m, e, a2⟩, a3⟩ := hs
    obtain ⟨b1, ⟨m', e', b2⟩, b3⟩ := ih _ a1
    refine ⟨b1, ⟨m ++ m', by rw [e', e, List.append_assoc], ?_⟩, ?_⟩
    · intro i hi
      rcases List.mem_append.1 hi with q | q
      · obtain ⟨rfl, r1, r2⟩ := a2 i q
        exact ⟨by simp, r1, r2⟩
      · obtain ⟨r0, r1, r2⟩ := b2 i q
        exact ⟨by simp [r0], r1, r2⟩
    · intro i hi h0 he
      rcases List.mem_cons.1 hi with rfl | q
      · rw [e']
        exact List.mem_append_left _ (a3 h0 he)
      · exact b3 i q h0 he

theorem layer_fold {T : Top} : ∀ (ks : List Nat) (p : Pk), PInv T p →
    PInv T (ks.foldl (fun q k => (T.nb k).foldl (seeE T) q) p) ∧
      (∃ m, (ks.foldl (fun q k => (T.nb k).foldl (seeE T) q) p).list = p.list ++ m ∧
        ∀ j ∈ m, ∃ k ∈ ks, j ∈ T.nb k ∧ j ≠ 0 ∧ T.eok j = true) ∧
      ∀ k ∈ ks, ∀ j ∈ T.nb k, j ≠ 0 → T.eok j = true → j ∈ (ks.foldl (fun q k => (T.nb k).foldl (seeE T) q) p).list := by
  intro ks
  induction ks with
  | nil => intro p h; exact ⟨h, ⟨[], by simp, fun j hj => absurd hj (by simp)⟩, fun j hj => absurd hj (by simp)⟩
  | cons k ks ih =>
    intro p h
    rw [List.foldl_cons]
    obtain ⟨a1, ⟨m, e, a2⟩, a3⟩ := see_fold (T.nb k) p h
    obtain ⟨b1, ⟨m', e', b2⟩, b3⟩ := ih _ a1
    refine ⟨b1, ⟨m ++ m', by rw [e', e, List.append_assoc], ?_⟩, ?_⟩
    · intro i hi
      rcases List.mem_append.1 hi with q | q
      · exact ⟨k, by simp, a2 i q⟩
      · obtain ⟨k', r0, r1⟩ := b2 i q
        exact ⟨k', by simp [r0], r1⟩
    · intro k' hk j hj h0 he
      rcases List.mem_cons.1 hk with rfl | q
      · rw [e']
        exact List.mem_append_left _ (a3 j hj h0 he)
      · exact b3 k' q j hj h0 he

theorem layers_inv {T : Top} : ∀ (n m : Nat) (p : Pk) (done : Nat), PInv T p → (∀ k, k ∈ p.list ↔ Near T m k) →
    (∀ k ∈ p.list.take done, ∀ j ∈ T.nb k, j ≠ 0 → T.eok j = true → j ∈ p.list) →
    PInv T (layers T n p done) ∧ ∀ k, k ∈ (layers T n p done).list ↔ Near T (m + n) k := by
  intro n
  induction n with
  | zero => intro m p done h1 h2 _; exact ⟨h1, h2⟩
  | succ n ih =>
    intro m p done h1 h2 h3
    unfold layers
    obtain ⟨a1, ⟨l, e, a2⟩, a3⟩ := layer_fold (p.list.drop done) p h1
    change PInv T (layer T p done) at a1
    change (layer T p done).list = _ at e
    have hall : ∀ k ∈ p.list, ∀ j ∈ T.nb k, j ≠ 0 → T.eok j = true → j ∈ (layer T p done).list := by
      intro k hk j hj h0 he
      rw [← List.take_append_drop done p.list] at hk
      rcases List.mem_append.1 hk with q | q
      · rw [e]
        exact List.mem_append_left _ (h3 k q j hj h0 he)
      · exact a3 k q j hj h0 he
    have hm : ∀ k, k ∈ (layer T p done).list ↔ Near T (m + 1) k := by
      intro k
      constructor
      · intro hk
        rw [e] at hk
        rcases List.mem_append.1 hk with q | q
        · exact ((h2 k).1 q).mono
        · obtain ⟨k', r0, r1, r2, r3⟩ := a2 k q
          exact .step ((h2 k').1 (List.mem_of_mem_drop r0)) r1 r2 r3
      · intro hk
        cases hk with
        | src b1 b2 b3 b4 =>
          rw [e]
          exact List.mem_append_left _ ((h2 k).2 (.src b1 b2 b3 b4))
        | step b1 b2 b3 b4 => exact hall _ ((h2 _).2 b1) k b2 b3 b4
    obtain ⟨c1, c2⟩ := ih (m + 1) (layer T p done) p.list.length a1 hm (by
      intro k hk
      rw [e, List.take_left'] at hk
      · exact hall k hk
      · rfl)
    exact ⟨c1, fun k => by rw [c2 k, show m + 1 + n = m + (n + 1) by omega]⟩

/-- The sub-mesh has exactly the elements at most 20 steps from the moving boundary, each once; its vertices are exactly those of these
elements, numbered from 1 without gap or repetition. -/
theorem C93_hull (T : Top) : (pack T).list.Nodup ∧ (∀ k, k ∈ (pack T).list ↔ Near T 20 k) ∧
    Num (fun x => ∃ k, Near T 20 k ∧ x ∈ T.vs k) (pack T).perm (pack T).npf := by
  obtain ⟨a, b⟩ := sources_inv T
  obtain ⟨c, d⟩ := layers_inv 20 0 (sources T) 0 a b (fun k hk => by simp at hk)
  have d' : ∀ k, k ∈ (pack T).list ↔ Near T 20 k := fun k => by rw [← Nat.zero_add 20]; exact d k
  refine ⟨c.nodup, d', c.num.congr fun x => ?_⟩
  constructor
  · rintro ⟨k, hk, q⟩; exact ⟨k, (d' k).1 hk, q⟩
  · rintro ⟨k, hk, q⟩; exact ⟨k, (d' k).2 hk, q⟩

/-! ### The numbers back -/

theorem inverse_fold {perm : Nat → Nat} (hinj : ∀ x y, perm x ≠ 0 → perm x = perm y → x = y) : ∀ (l : List Nat) (inv : Nat → Nat) (x : Nat),
    x ∈ l → perm x ≠ 0 → (l.foldl (fun inv k => if perm k = 0 then inv else fun i => if i = perm k then k else inv i) inv) (perm x) = x := by
  intro l
  induction l with
  | nil => intro inv x hx; cases hx
  | cons k l ih =>
    intro inv x hx h0
    rw [List.foldl_cons]
    by_cases hl : x ∈ l
    · exact ih _ x hl h0
    · have e : x = k := (List.mem_cons.1 hx).resolve_right hl
      subst e
      clear ih hx
      have : ∀ (l : List Nat) (inv : Nat → Nat), x ∉ l → inv (perm x) = x →
          (l.foldl (fun inv k => if perm k = 0 then inv else fun i => if i = perm k then k else inv i) inv) (perm x) = x := by
        intro l
        induction l with
        | nil => intro inv _ h; exact h
        | cons k l ih =>
          intro inv hn h
          rw [List.foldl_cons]
          apply ih _ (fun q => hn (by simp [q]))
          by_cases c : perm k = 0
          · rw [if_pos c]; exact h
          · rw [if_neg c]
            have : perm x ≠ perm k := fun q => hn (by rw [hinj x k h0 q]; simp)
            simp only [if_neg this, h]
      apply this l _ hl
      rw [if_neg h0]
      simp

theorem unpack_fold {V : Type} {inv : Nat → Nat} {u : Nat → V} : ∀ (l : List Nat) (w : Nat → V),
    (∀ x, (∀ k ∈ l, x ≠ inv k) → (l.foldl (fun w k => fun x => if x = inv k then u (k - 1) else w x) w) x = w x) ∧
    ((∀ a ∈ l, ∀ b ∈ l, inv a = inv b → a = b) → ∀ k ∈ l, (l.foldl (fun w k => fun x => if x = inv k then u (k - 1) else w x) w) (inv k) = u (k - 1)) := by
  intro l
  induction l with
  | nil => intro w; exact ⟨fun _ _ => rfl, fun _ k hk => absurd hk (by simp)⟩
  | cons j l ih =>
    intro w
    rw [List.foldl_cons]
    obtain ⟨a, b⟩ := ih (fun x => if x = inv j then u (j - 1) else w x)
    refine ⟨?_, ?_⟩
    · intro x hx
      rw [a x fun k hk => hx k (by simp [hk]), if_neg (hx j (by simp))]
    · intro hinj k hk
      by_cases hl : k ∈ l
      · exact b (fun p hp q hq => hinj p (by simp [hp]) q (by simp [hq])) k hl
      · have e : k = j := (List.mem_cons.1 hk).resolve_right hl
        subst e
        rw [a]
        · simp
        · intro m hm q
          exact hl (by rw [hinj k (by simp) m (by simp [hm]) q]; exact hm)

/-- The extension of the displacement: the library gets at each vertex of the sub-mesh the displacement of the same vertex of the mesh;
its solution comes back to the same vertex; all other vertices get the displacement 0. -/
theorem C93_extend {V : Type} [Zero V] {twoD : Bool} {T : Top} {solve : Pk → (Nat → V) → Option (Nat → V)} {v w : Nat → V}
    (hv : ∀ k, Near T 20 k → ∀ x ∈ T.vs k, 1 ≤ x ∧ x ≤ T.np) (h : extend twoD T solve v = .ok w) :
    ∃ g u, solve (pack T) g = some u ∧ (∀ x, (∃ k, Near T 20 k ∧ x ∈ T.vs k) →
        g ((pack T).perm x - 1) = v x ∧ w x = u ((pack T).perm x - 1)) ∧
      ∀ x, 1 ≤ x → x ≤ T.np → (¬ ∃ k, Near T 20 k ∧ x ∈ T.vs k) → w x = 0 := by
  unfold extend at h
  simp only at h
  obtain ⟨_, _, hn⟩ := C93_hull T
  by_cases c : (pack T).npf = 0
  · rw [if_pos c] at h
    cases twoD <;> cases h
  · rw [if_neg c] at h
    cases hs : solve (pack T) (fun i => v (inverse (pack T).perm T.np (i + 1))) with
    | none => rw [hs] at h; cases h
    | some u =>
      rw [hs] at h
      have ew := Outcome.ok.inj h
      refine ⟨_, u, hs, ?_, ?_⟩
      · intro x hx
        have h0 : (pack T).perm x ≠ 0 := (hn.iff x).2 hx
        obtain ⟨k, hk, hxk⟩ := hx
        obtain ⟨r1, r2⟩ := hv k hk x hxk
        have hi : inverse (pack T).perm T.np ((pack T).perm x) = x := by
          unfold inverse
          exact inverse_fold hn.inj _ _ x (by rw [List.mem_range'_1]; omega) h0
        refine ⟨?_, ?_⟩
        · show v (inverse (pack T).perm T.np ((pack T).perm x - 1 + 1)) = v x
          rw [Nat.sub_add_cancel (by omega), hi]
        · rw [← ew]
          unfold unpack
          have hinv : ∀ a ∈ List.range' 1 (pack T).npf, ∃ y, (1 ≤ y ∧ y ≤ T.np) ∧ (pack T).perm y = a ∧ inverse (pack T).perm T.np a = y := by
            intro a ha
            rw [List.mem_range'_1] at ha
            obtain ⟨y, hy⟩ := hn.surj a ha.1 (by omega)
            have hy0 : (pack T).perm y ≠ 0 := by rw [hy]; omega
            obtain ⟨k', hk', hyk⟩ := (hn.iff y).1 hy0
            have hr := hv k' hk' y hyk
            refine ⟨y, hr, hy, ?_⟩
            rw [← hy]
            unfold inverse
            exact inverse_fold hn.inj _ _ y (by rw [List.mem_range'_1]; omega) hy0
          have := (unpack_fold (inv := inverse (pack T).perm T.np) (u := u) (List.range' 1 (pack T).npf)
            (fun k => if 1 ≤ k ∧ k ≤ T.np then 0 else v k)).2 (by
              intro a ha b hb q
              obtain ⟨y, _, e1, e2⟩ := hinv a ha
              obtain ⟨z, _, e3, e4⟩ := hinv b hb
              rw [← e1, ← e3, ← e2, ← e4, q]) ((pack T).perm x) (by
                rw [List.mem_range'_1]
                have := hn.le x
                omega)
          rw [hi] at this
          exact this
      · intro x h1 h2 hx
        rw [← ew]
        unfold unpack
        rw [(unpack_fold (inv := inverse (pack T).perm T.np) (u := u) (List.range' 1 (pack T).npf)
            (fun k => if 1 ≤ k ∧ k ≤ T.np then 0 else v k)).1]
        · exact if_pos ⟨h1, h2⟩
        · intro a ha q
          rw [List.mem_range'_1] at ha
          obtain ⟨y, hy⟩ := hn.surj a ha.1 (by omega)
          have hy0 : (pack T).perm y ≠ 0 := by rw [hy]; omega
          obtain ⟨k', hk', hyk⟩ := (hn.iff y).1 hy0
          have hr := hv k' hk' y hyk
          have hi : inverse (pack T).perm T.np ((pack T).perm y) = y := by
            unfold inverse
            exact inverse_fold hn.inj _ _ y (by rw [List.mem_range'_1]; omega) hy0
          rw [← hy, hi] at q
          exact hx ⟨k', hk', by rw [q]; exact hyk⟩

/-- So the displacement given at the moving boundary stays, for a library that keeps the values of a Dirichlet condition. -/
theorem C93_given {V : Type} [Zero V] {twoD : Bool} {T : Top} {solve : Pk → (Nat → V) → Option (Nat → V)} {v w : Nat → V} {D : Nat → Prop}
    (hv : ∀ k, Near T 20 k → ∀ x ∈ T.vs k, 1 ≤ x ∧ x ≤ T.np)
    (hD : ∀ x, D x → ∃ k, 1 ≤ k ∧ k ≤ T.ne ∧ T.eok k = true ∧ T.src k = true ∧ x ∈ T.vs k)
    (hs : ∀ p g u, solve p g = some u → ∀ x, D x → u (p.perm x - 1) = g (p.perm x - 1))
    (h : extend twoD T solve v = .ok w) {x : Nat} (hx : D x) : w x = v x := by
  obtain ⟨g, u, e, a, _⟩ := C93_extend hv h
  obtain ⟨k, h1, h2, h3, h4, h5⟩ := hD x hx
  obtain ⟨b, c⟩ := a x ⟨k, .src h1 h2 h3 h4, h5⟩
  rw [c, hs _ _ _ e x hx, b]

/-- In 2D, without an edge of the moving boundary a number that was never set decides; in 3D the motion is refused. -/
theorem C93_nosource_observed {V : Type} [Zero V] {T : Top} {solve : Pk → (Nat → V) → Option (Nat → V)} {v : Nat → V}
    (h : ∀ k, 1 ≤ k → k ≤ T.ne → T.eok k = true → T.src k = false) : extend true T solve v = .ub ∧ extend false T solve v = .fail := by
  have hno : ∀ n k, ¬ Near T n k := by
    intro n k q
    induction q with
    | src a b c d => rw [h _ a b c] at d; cases d
    | step _ _ _ _ ih => exact ih
  obtain ⟨_, _, hn⟩ := C93_hull T
  have : (pack T).npf = 0 := by
    by_contra c
    obtain ⟨x, hx⟩ := hn.surj 1 (le_refl _) (by omega)
    obtain ⟨k, hk, _⟩ := (hn.iff x).1 (by rw [hx]; decide)
    exact hno _ _ hk
  unfold extend
  simp only [this]
  exact ⟨rfl, rfl⟩

/-! ### The sides -/

/-- What holds of the sides: neighbours are mutual, a side is not its own neighbour, both copies of a side have the same reference. -/
structure Sides.Wf (S : Sides) : Prop where
  symm : ∀ x y, S.opp x = some y → S.opp y = some x
  ne : ∀ x, S.opp x ≠ some x
  ref : ∀ x y, S.opp x = some y → S.isD x = S.isD y

theorem count_inv {S : Sides} (hS : S.Wf) (l : List (Nat × Nat)) : l.Nodup →
    (∀ z, (count S l).2 z = true ↔ ∃ x ∈ l, S.isD x = true ∧ S.opp x = some z ∧ (count S l).2 x = false) ∧
      (count S l).1 = (added S (count S l).2 l).length := by
  induction l using List.reverseRecOn with
  | nil => intro _; exact ⟨fun z => by simp [count], rfl⟩
  | append_singleton l x ih =>
    intro hn
    rw [List.nodup_append] at hn
    obtain ⟨i1, i2⟩ := ih hn.1
    have hx : x ∉ l := fun q => hn.2.2 x q x (by simp) rfl
    have e : count S (l ++ [x]) = count1 S (count S l) x := by unfold count; rw [List.foldl_append]; rfl
    rw [e]
    generalize hc : count S l = s at i1 i2 ⊢
    have hadd : ∀ mk, added S mk (l ++ [x]) = added S mk l ++ added S mk [x] := by intro mk; unfold added; rw [List.filterMap_append]
    unfold count1
    by_cases hd : S.isD x = true
    · rw [if_pos hd]
      by_cases hm : s.2 x = true
      · rw [if_pos hm]
        refine ⟨?_, ?_⟩
        · intro z
          rw [i1 z]
          constructor
          · rintro ⟨y, a, b⟩; exact ⟨y, by simp [a], b⟩
          · rintro ⟨y, a, b, c, d⟩
            rcases List.mem_append.1 a with a | a
            · exact ⟨y, a, b, c, d⟩
            · rw [List.mem_singleton.1 a, hm] at d; cases d
        · rw [hadd, List.length_append, ← i2]
          simp [added, hd, hm]
      · rw [if_neg hm]
        have hm' : s.2 x = false := by simpa using hm
        cases ho : S.opp x with
        | none =>
          simp only
          refine ⟨?_, ?_⟩
          · intro z
            rw [i1 z]
            constructor
            · rintro ⟨y, a, b⟩; exact ⟨y, by simp [a], b⟩
            · rintro ⟨y, a, b, c, d⟩
              rcases List.mem_append.1 a with a | a
              · exact ⟨y, a, b, c, d⟩
              · rw [List.mem_singleton.1 a, ho] at c; cases c
          · rw [hadd, List.length_append, ← i2]
            simp [added, hd, hm']
        | some y =>
          simp only
          have hyx : y ≠ x := fun q => hS.ne x (by rw [ho, q])
          have hyo := hS.symm x y ho
          have hyd : S.isD y = true := by rw [← hS.ref x y ho]; exact hd
          -- the other copy is not yet there without mark
          have hyl : y ∈ l → s.2 y = true := by
            intro q
            by_contra r
            exact hm ((i1 x).2 ⟨y, q, hyd, hyo, by simpa using r⟩)
          have hyu : s.2 y = false := by
            by_contra r
            obtain ⟨w, a, _, c, _⟩ := (i1 y).1 (by simpa using r)
            have := hS.symm w y c
            rw [hyo] at this
            rw [← Option.some.inj this] at a
            exact hx a
          have hyl' : y ∉ l := fun q => by rw [hyl q] at hyu; cases hyu
          refine ⟨?_, ?_⟩
          · intro z
            by_cases ez : z = y
            · rw [ez, if_pos rfl]
              simp only [true_iff]
              exact ⟨x, by simp, hd, ho, by rw [if_neg (Ne.symm hyx)]; exact hm'⟩
            · rw [if_neg ez, i1 z]
              constructor
              · rintro ⟨w, a, b, c, d⟩
                refine ⟨w, by simp [a], b, c, ?_⟩
                rw [if_neg (fun q => hyl' (by rw [← q]; exact a))]
                exact d
              · rintro ⟨w, a, b, c, d⟩
                rcases List.mem_append.1 a with a | a
                · rw [if_neg (fun q => hyl' (by rw [← q]; exact a))] at d
                  exact ⟨w, a, b, c, d⟩
                · rw [List.mem_singleton.1 a, ho] at c
                  exact absurd (Option.some.inj c).symm ez
          · rw [hadd, List.length_append]
            have e1 : added S (fun z => if z = y then true else s.2 z) l = added S s.2 l := by
              unfold added
              apply List.filterMap_congr
              intro z hz
              have : z ≠ y := fun q => hyl' (by rw [← q]; exact hz)
              simp only [if_neg this]
            rw [e1, ← i2]
            simp [added, hd, hm', Ne.symm hyx]
    · have hd' : S.isD x = false := by simpa using hd
      rw [if_neg hd]
      have hinv : ∀ z, s.2 z = true ↔ ∃ y ∈ l ++ [x], S.isD y = true ∧ S.opp y = some z ∧ s.2 y = false := by
        intro z
        rw [i1 z]
        constructor
        · rintro ⟨y, a, b⟩; exact ⟨y, by simp [a], b⟩
        · rintro ⟨y, a, b, c, d⟩
          rcases List.mem_append.1 a with a | a
          · exact ⟨y, a, b, c, d⟩
          · rw [List.mem_singleton.1 a] at b; exact absurd b hd
      by_cases hb : S.border x = true
      · rw [if_pos hb]
        refine ⟨hinv, ?_⟩
        rw [hadd, List.length_append, ← i2]
        simp [added, hd', hb]
      · rw [if_neg hb]
        refine ⟨hinv, ?_⟩
        rw [hadd, List.length_append, ← i2]
        simp [added, hd', hb]

/-- The sides given to the library: as many as announced; the moving boundary has each of its sides once, whether it lies inside or on the
border of the sub-mesh, with the given displacement; each other side of the border once, with displacement 0; no other side. -/
theorem C93_sides {S : Sides} (hS : S.Wf) {l : List (Nat × Nat)} (hl : l.Nodup) (hD : ∀ x ∈ l, S.isD x = true → ∀ y, S.opp x = some y → y ∈ l) :
    (added S (count S l).2 l).length = (count S l).1 ∧ ((added S (count S l).2 l).map Prod.fst).Nodup ∧
    (∀ x ∈ l, S.isD x = true → S.opp x = none → (x, true) ∈ added S (count S l).2 l) ∧
    (∀ x ∈ l, ∀ y, S.isD x = true → S.opp x = some y → ((x, true) ∈ added S (count S l).2 l ↔ ¬ (y, true) ∈ added S (count S l).2 l)) ∧
    (∀ x, (x, false) ∈ added S (count S l).2 l ↔ x ∈ l ∧ S.isD x = false ∧ ∀ y, S.opp x = some y → S.inn y.1 = false) ∧
    ∀ x, (x, true) ∈ added S (count S l).2 l → x ∈ l ∧ S.isD x = true := by
  obtain ⟨h1, h2⟩ := count_inv hS l hl
  have hmem : ∀ x b, (x, b) ∈ added S (count S l).2 l ↔
      x ∈ l ∧ ((S.isD x = true ∧ (count S l).2 x = false ∧ b = true) ∨ (S.isD x = false ∧ S.border x = true ∧ b = false)) := by
    intro x b
    unfold added
    rw [List.mem_filterMap]
    constructor
    · rintro ⟨y, hy, e⟩
      by_cases c1 : S.isD y = true
      · rw [if_pos c1] at e
        by_cases c2 : (count S l).2 y = true
        · rw [if_pos c2] at e; cases e
        · rw [if_neg c2] at e
          have := Option.some.inj e
          obtain ⟨rfl, rfl⟩ := Prod.mk.inj this
          exact ⟨hy, .inl ⟨c1, by simpa using c2, rfl⟩⟩
      · rw [if_neg c1] at e
        by_cases c2 : S.border y = true
        · rw [if_pos c2] at e
          obtain ⟨rfl, rfl⟩ := Prod.mk.inj (Option.some.inj e)
          exact ⟨hy, .inr ⟨by simpa using c1, c2, rfl⟩⟩
        · rw [if_neg c2] at e; cases e
    · rintro ⟨hx, (⟨a, b', rfl⟩ | ⟨a, b', rfl⟩)⟩
      · exact ⟨x, hx, by simp [a, b']⟩
      · exact ⟨x, hx, by simp [a, b']⟩
  refine ⟨h2.symm, ?_, ?_, ?_, ?_, ?_⟩
  · have : (added S (count S l).2 l).map Prod.fst = l.filter fun x => if S.isD x then !(count S l).2 x else S.border x := by
      unfold added
      clear h1 h2 hmem hD hl
      generalize (count S l).2 = mk
      induction l with
      | nil => rfl
      | cons x l ih =>
        rw [List.filterMap_cons, List.filter_cons]
        by_cases c1 : S.isD x = true
        · by_cases c2 : mk x = true
          · simp [c1, c2, ih]
          · simp [c1, c2, ih]
        · by_cases c2 : S.border x = true
          · simp [c1, c2, ih]
          · simp [c1, c2, ih]
    rw [this]
    exact hl.filter _
  · intro x hx hd ho
    rw [hmem]
    refine ⟨hx, .inl ⟨hd, ?_, rfl⟩⟩
    by_contra c
    obtain ⟨y, _, _, e, _⟩ := (h1 x).1 (by simpa using c)
    rw [hS.symm y x e] at ho
    cases ho
  · intro x hx y hd ho
    have hy := hD x hx hd y ho
    have hyd : S.isD y = true := by rw [← hS.ref x y ho]; exact hd
    rw [hmem, hmem]
    have hkey : (count S l).2 x = true ↔ (count S l).2 y = false := by
      rw [h1 x]
      constructor
      · rintro ⟨z, _, _, e, f⟩
        have := hS.symm z x e
        rw [ho] at this
        rw [Option.some.inj this]; exact f
      · intro q; exact ⟨y, hy, hyd, hS.symm x y ho, q⟩
    simp only [hx, hy, hd, hyd, true_and, and_true, Bool.true_eq_false, false_and, or_false]
    rw [← hkey]
    simp
  · intro x
    have hb : S.border x = true ↔ ∀ y, S.opp x = some y → S.inn y.1 = false := by
      unfold Sides.border
      cases S.opp x with
      | none => simp
      | some y => simp
    rw [hmem, hb]
    simp
  · intro x hx
    rw [hmem] at hx
    rcases hx with ⟨a, (⟨b, _⟩ | ⟨_, _, c⟩)⟩
    · exact ⟨a, b⟩
    · cases c

/-! ### Concrete cases -/

/-- A strip of 30 triangles, the moving boundary at the first: 21 of them are taken, with the vertices 1 to 23. -/
def strip : Top := ⟨32, 30, fun _ => true, fun k => [k, k + 1, k + 2], fun k => [if k = 30 then 0 else k + 1, k - 1, 0], fun k => k == 1⟩

example : (pack strip).list = List.range' 1 21 ∧ (pack strip).npf = 23 := by decide +kernel

example : ∀ k, Near strip 20 k → ∀ x ∈ strip.vs k, 1 ≤ x ∧ x ≤ strip.np := by
  have h : ∀ n k, Near strip n k → 1 ≤ k ∧ k ≤ 30 := by
    intro n k q
    induction q with
    | src a b _ _ => exact ⟨a, b⟩
    | @step n k j _ a b _ ih =>
      have : j = (if k = 30 then 0 else k + 1) ∨ j = k - 1 ∨ j = 0 := by simpa [strip] using a
      rcases this with e | e | e
      · by_cases c : k = 30
        · rw [if_pos c] at e; exact absurd e b
        · rw [if_neg c] at e; omega
      · omega
      · exact absurd e b
  intro k hk x hx
  obtain ⟨a, b⟩ := h _ k hk
  have : x = k ∨ x = k + 1 ∨ x = k + 2 := by simpa [strip] using hx
  show 1 ≤ x ∧ x ≤ 32
  omega

/-- Two triangles with a common side of the moving boundary, and four other sides. -/
def two : Sides := ⟨fun x => if x = (1, 0) then some (2, 0) else if x = (2, 0) then some (1, 0) else none, fun x => x == (1, 0) || x == (2, 0), fun k => k == 1 || k == 2⟩

example : added two (count two [(1, 0), (1, 1), (1, 2), (2, 0), (2, 1), (2, 2)]).2 [(1, 0), (1, 1), (1, 2), (2, 0), (2, 1), (2, 2)] =
    [((1, 0), true), ((1, 1), false), ((1, 2), false), ((2, 1), false), ((2, 2), false)] := by decide

example : two.Wf := by
  have key : ∀ x y, two.opp x = some y → (x = (1, 0) ∧ y = (2, 0)) ∨ (x = (2, 0) ∧ y = (1, 0)) := by
    intro x y h
    simp only [two] at h
    by_cases c : x = (1, 0)
    · rw [if_pos c] at h; exact .inl ⟨c, (Option.some.inj h).symm⟩
    · rw [if_neg c] at h
      by_cases c' : x = (2, 0)
      · rw [if_pos c'] at h; exact .inr ⟨c', (Option.some.inj h).symm⟩
      · rw [if_neg c'] at h; cases h
  refine ⟨?_, ?_, ?_⟩
  · intro x y h
    rcases key x y h with ⟨rfl, rfl⟩ | ⟨rfl, rfl⟩ <;> decide
  · intro x h
    rcases key x x h with ⟨rfl, e⟩ | ⟨rfl, e⟩ <;> exact absurd e (by decide)
  · intro x y h
    rcases key x y h with ⟨rfl, rfl⟩ | ⟨rfl, rfl⟩ <;> decide

end Mmg.Lag
