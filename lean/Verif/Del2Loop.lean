/- C91: the loops of `MMG2D_delone` (helper lemmas). -/
import Verif.Del2Cav
import Verif.HashLemmas
import Verif.Tri2ColLemmas

namespace Mmg.Del2

open Mmg.Tri2
open Mmg.Hash (Outcome Hash hashNew hashGet hashEdge Inv upd)

variable {M : Mesh} {mark : Nat → Nat} {base ip : Nat} {l : List Nat} {tref : Int} {new : Nat → Nat} {g : Option Nat}

theorem mem_extSides (hm : ∀ k, mark k = base ↔ k ∈ l) {x : HE} : x ∈ extSides M mark base l ↔ Ext M l x := by
  obtain ⟨k, i⟩ := x
  unfold extSides Ext
  simp only [List.mem_flatMap, List.mem_map, List.mem_filter, Prod.mk.injEq]
  constructor
  · rintro ⟨k', hk', i', ⟨_, h⟩, rfl, rfl⟩
    exact ⟨hk', (isExt_iff hm _).1 h⟩
  · rintro ⟨h1, h2⟩
    exact ⟨k, h1, i, ⟨(by decide : ∀ i : Fin 3, i ∈ [0, 1, 2]) i, (isExt_iff hm _).2 h2⟩, rfl, rfl⟩

theorem nodup_extSides (hl : l.Nodup) : (extSides M mark base l).Nodup := by
  unfold extSides
  rw [List.nodup_flatMap]
  refine ⟨fun k _ => ?_, ?_⟩
  · apply List.Nodup.map
    · intro a b h; exact (Prod.mk.inj h).2
    · exact List.Nodup.filter _ (by decide)
  · refine hl.imp ?_
    intro a b hab
    simp only [Function.onFun, List.disjoint_left, List.mem_map, List.mem_filter]
    rintro x ⟨i, _, rfl⟩ ⟨i', _, e⟩
    exact hab (Prod.mk.inj e).1.symm

/-- Number of the new triangle over a side. -/
def num (X : List HE) (new : Nat → Nat) (x : HE) : Nat := new (X.idxOf x)

/-- What the insertion needs. -/
structure Sit (M : Mesh) (mark : Nat → Nat) (base ip : Nat) (tref : Int) (l : List Nat) (new : Nat → Nat) : Prop where
  valid : Valid M
  cav : Cav M base tref mark l
  ip0 : ip ≠ 0
  ipv : ∀ k, M.live k → ∀ i, (M.tri k).v i ≠ ip
  free : ∀ j, j < (extSides M mark base l).length → new j ≠ 0 ∧ ¬ M.live (new j)
  inj : ∀ i j, i < (extSides M mark base l).length → j < (extSides M mark base l).length → new i = new j → i = j
  simple : ∀ x y, Ext M l x → Ext M l y → M.org x = M.org y ∨ M.dst x = M.dst y → x = y

section
variable (S : Sit M mark base ip tref l new)
include S

theorem Sit.mem {x : HE} : x ∈ extSides M mark base l ↔ Ext M l x := mem_extSides S.cav.mark

theorem Sit.num_free {x : HE} (hx : Ext M l x) : num (extSides M mark base l) new x ≠ 0 ∧ ¬ M.live (num (extSides M mark base l) new x) :=
  S.free _ (List.idxOf_lt_length_of_mem (S.mem.2 hx))

theorem Sit.num_inj {x y : HE} (hx : Ext M l x) (hy : Ext M l y)
    (h : num (extSides M mark base l) new x = num (extSides M mark base l) new y) : x = y := by
  have h1 := S.inj _ _ (List.idxOf_lt_length_of_mem (S.mem.2 hx)) (List.idxOf_lt_length_of_mem (S.mem.2 hy)) h
  exact (List.idxOf_inj (S.mem.2 hx)).1 h1

end

/-- Vertex of the internal side `j` of the triangle over `x`, besides the new one. -/
def vert (M : Mesh) (q : HE × Fin 3) : Nat := if q.2 = q.1.2 + 1 then M.dst q.1 else M.org q.1

/-- An internal side of a new triangle. -/
def Spoke (M : Mesh) (l : List Nat) (q : HE × Fin 3) : Prop := Ext M l q.1 ∧ q.2 ≠ q.1.2

def ek (a b : Nat) : Nat × Nat × Nat := (Nat.min a b, Nat.max a b, 0)

theorem ek_comm (a b : Nat) : ek a b = ek b a := by
  unfold ek
  rw [show Nat.min a b = Nat.min b a from Nat.min_comm a b, show Nat.max a b = Nat.max b a from Nat.max_comm a b]

theorem ek_inj {a b c : Nat} (h : ek a b = ek a c) : b = c := by
  unfold ek at h
  have h1 : min a b = min a c := (Prod.mk.inj h).1
  have h2 : max a b = max a c := (Prod.mk.inj (Prod.mk.inj h).2).1
  omega

theorem Sit.two (S : Sit M mark base ip tref l new) {q q' q'' : HE × Fin 3} (h : Spoke M l q) (h' : Spoke M l q') (h'' : Spoke M l q'')
    (e : vert M q = vert M q') (e' : vert M q = vert M q'') : q = q' ∨ q = q'' ∨ q' = q'' := by
  have kind : ∀ q, Spoke M l q → (q.2 = q.1.2 + 1 ∧ vert M q = M.dst q.1) ∨ (q.2 = q.1.2 + 2 ∧ vert M q = M.org q.1) := by
    intro q hq
    unfold vert
    rcases (f3 q.1.2).2.2.2.2.2.2.2 q.2 with r | r | r
    · exact absurd r hq.2
    · exact Or.inl ⟨r, if_pos r⟩
    · refine Or.inr ⟨r, if_neg ?_⟩
      rw [r]; exact fun c => (f3 q.1.2).2.2.1 c.symm
  have same : ∀ q q', Spoke M l q → Spoke M l q' → vert M q = vert M q' →
      ((q.2 = q.1.2 + 1 ∧ q'.2 = q'.1.2 + 1) ∨ (q.2 = q.1.2 + 2 ∧ q'.2 = q'.1.2 + 2)) → q = q' := by
    intro q q' hq hq' hv hk
    rcases hk with ⟨k1, k2⟩ | ⟨k1, k2⟩
    · rcases kind q hq with r | r
      · rcases kind q' hq' with r' | r'
        · have := S.simple q.1 q'.1 hq.1 hq'.1 (Or.inr (by rw [← r.2, ← r'.2]; exact hv))
          exact Prod.ext this (by rw [k1, k2, this])
        · exact absurd (k2.symm.trans r'.1) (f3 q'.1.2).2.2.1
      · exact absurd (k1.symm.trans r.1) (f3 q.1.2).2.2.1
    · rcases kind q hq with r | r
      · exact absurd (r.1.symm.trans k1) (f3 q.1.2).2.2.1
      · rcases kind q' hq' with r' | r'
        · exact absurd (r'.1.symm.trans k2) (f3 q'.1.2).2.2.1
        · have := S.simple q.1 q'.1 hq.1 hq'.1 (Or.inl (by rw [← r.2, ← r'.2]; exact hv))
          exact Prod.ext this (by rw [k1, k2, this])
  rcases kind q h with r | r <;> rcases kind q' h' with r' | r' <;> rcases kind q'' h'' with r'' | r''
  · exact Or.inl (same _ _ h h' e (Or.inl ⟨r.1, r'.1⟩))
  · exact Or.inl (same _ _ h h' e (Or.inl ⟨r.1, r'.1⟩))
  · exact Or.inr (Or.inl (same _ _ h h'' e' (Or.inl ⟨r.1, r''.1⟩)))
  · exact Or.inr (Or.inr (same _ _ h' h'' (e.symm.trans e') (Or.inr ⟨r'.1, r''.1⟩)))
  · exact Or.inr (Or.inr (same _ _ h' h'' (e.symm.trans e') (Or.inl ⟨r'.1, r''.1⟩)))
  · exact Or.inr (Or.inl (same _ _ h h'' e' (Or.inr ⟨r.1, r''.1⟩)))
  · exact Or.inl (same _ _ h h' e (Or.inr ⟨r.1, r'.1⟩))
  · exact Or.inl (same _ _ h h' e (Or.inr ⟨r.1, r'.1⟩))

/-- The table after the internal sides `Q`. -/
def mapQ (M : Mesh) (ip : Nat) (N : HE → Nat) (Q : List (HE × Fin 3)) : Nat × Nat × Nat → Option Nat :=
  fun t => (Q.find? fun q => ek ip (vert M q) == t).map fun q => 3 * N q.1 + q.2

/-- Table and links of the internal sides `Q`. -/
structure Glued (M : Mesh) (ip : Nat) (N : HE → Nat) (Q : List (HE × Fin 3)) (x : Mesh × Hash) : Prop where
  tab : Inv false x.2 (mapQ M ip N Q)
  lnk : ∀ q ∈ Q, ∀ q' ∈ Q, q ≠ q' → vert M q = vert M q' → x.1.adj (N q.1, q.2) = some (N q'.1, q'.2)

theorem decode_spec (k : Nat) (i : Fin 3) : decode (3 * k + i) = (k, i) := by
  unfold decode
  have := i.2
  refine Prod.ext ?_ (Fin.ext ?_)
  · simp only; omega
  · simp only; omega

theorem Sit.glue (S : Sit M mark base ip tref l new) (hg : ∀ n, g = some n → 1 ≤ n) {Q : List (HE × Fin 3)} {x : Mesh × Hash}
    (G : Glued M ip (num (extSides M mark base l) new) Q x) (hQ : ∀ q ∈ Q, Spoke M l q) {q : HE × Fin 3} (hq : Spoke M l q) (hn : q ∉ Q)
    (ht : x.1.tri (num (extSides M mark base l) new q.1) = (M.tri q.1.1).setV q.1.2 ip) :
    (glue g (num (extSides M mark base l) new q.1) x q.2 = .fail ∧ g = none) ∨
    ∃ x', glue g (num (extSides M mark base l) new q.1) x q.2 = .ok x' ∧ Glued M ip (num (extSides M mark base l) new) (Q ++ [q]) x' ∧
      x'.1.tri = x.1.tri ∧
      ∀ h, (∀ q' ∈ Q ++ [q], h ≠ (num (extSides M mark base l) new q'.1, q'.2)) → x'.1.adj h = x.1.adj h := by
  generalize hN : num (extSides M mark base l) new = N at *
  have Nfree : ∀ y, Ext M l y → N y ≠ 0 ∧ ¬ M.live (N y) := by intro y hy; rw [← hN]; exact S.num_free hy
  have Ninj : ∀ y z, Ext M l y → Ext M l z → N y = N z → y = z := by intro y z hy hz h; rw [← hN] at h; exact S.num_inj hy hz h
  have hlive : M.live q.1.1 := S.cav.live _ hq.1.1
  -- the ends
  obtain ⟨i0, i1, i2, i3, i4, i5, i6, i7⟩ := f3 q.1.2
  have ends : ek ((x.1.tri (N q.1)).v (q.2 + 1)) ((x.1.tri (N q.1)).v (q.2 + 2)) = ek ip (vert M q) ∧
      (x.1.tri (N q.1)).v (q.2 + 1) ≠ 0 ∧ (x.1.tri (N q.1)).v (q.2 + 2) ≠ 0 := by
    have hp := (S.valid.pos _ hlive).2
    rw [ht]
    unfold Tri.setV
    simp only
    rcases i7 q.2 with r | r | r
    · exact absurd r hq.2
    · rw [r, i3, i4, if_pos rfl, if_neg i1]
      unfold vert
      rw [if_pos r]
      exact ⟨ek_comm _ _, hp _, S.ip0⟩
    · rw [r, i5, i6, if_pos rfl, if_neg i0]
      unfold vert
      rw [r, if_neg fun c => i2 c.symm]
      exact ⟨rfl, S.ip0, hp _⟩
  obtain ⟨e0, a0, b0⟩ := ends
  unfold Del2.glue
  simp only
  have hget := G.tab.hashGet_spec ((x.1.tri (N q.1)).v (q.2 + 1)) ((x.1.tri (N q.1)).v (q.2 + 2))
  rw [show (Nat.min ((x.1.tri (N q.1)).v (q.2 + 1)) ((x.1.tri (N q.1)).v (q.2 + 2)),
    Nat.max ((x.1.tri (N q.1)).v (q.2 + 1)) ((x.1.tri (N q.1)).v (q.2 + 2)), 0) = ek ip (vert M q) from e0] at hget
  rw [hget]
  cases hf : Q.find? fun q' => ek ip (vert M q') == ek ip (vert M q) with
  | none =>
    have hm : mapQ M ip N Q (ek ip (vert M q)) = none := by unfold mapQ; rw [hf]; rfl
    rw [hm]
    simp only [Option.getD_none, if_true]
    rcases G.tab.hashEdge_spec a0 b0 (3 * N q.1 + q.2) g hg with ⟨v, c, _⟩ | ⟨_, ⟨h', e, J⟩ | ⟨e, c⟩⟩
    · rw [show (Nat.min ((x.1.tri (N q.1)).v (q.2 + 1)) ((x.1.tri (N q.1)).v (q.2 + 2)),
        Nat.max ((x.1.tri (N q.1)).v (q.2 + 1)) ((x.1.tri (N q.1)).v (q.2 + 2)), 0) = ek ip (vert M q) from e0, hm] at c
      cases c
    · right
      rw [e]
      refine ⟨(x.1, h'), rfl, ⟨?_, ?_⟩, rfl, fun _ _ => rfl⟩
      · rw [show (Nat.min ((x.1.tri (N q.1)).v (q.2 + 1)) ((x.1.tri (N q.1)).v (q.2 + 2)),
          Nat.max ((x.1.tri (N q.1)).v (q.2 + 1)) ((x.1.tri (N q.1)).v (q.2 + 2)), 0) = ek ip (vert M q) from e0] at J
        have em : mapQ M ip N (Q ++ [q]) = upd (mapQ M ip N Q) (ek ip (vert M q)) (3 * N q.1 + q.2) := by
          funext t
          unfold mapQ upd
          rw [List.find?_append]
          by_cases c : t = ek ip (vert M q)
          · subst c
            rw [hf, if_pos rfl]
            simp
          · rw [if_neg c]
            have : ([q].find? fun q' => ek ip (vert M q') == t) = none := by
              rw [List.find?_eq_none]
              intro q' hq'
              rw [List.mem_singleton.1 hq', beq_iff_eq]
              exact fun c' => c c'.symm
            rw [this, Option.or_none]
        rw [em]; exact J
      · intro p hp p' hp' hne hv
        rw [List.find?_eq_none] at hf
        have nov : ∀ p ∈ Q, vert M p ≠ vert M q := by
          intro p hp c
          have := hf p hp
          rw [c] at this; simp at this
        rcases List.mem_append.1 hp with hp | hp <;> rcases List.mem_append.1 hp' with hp' | hp'
        · exact G.lnk p hp p' hp' hne hv
        · rw [List.mem_singleton.1 hp'] at hv; exact absurd hv (nov p hp)
        · rw [List.mem_singleton.1 hp] at hv; exact absurd hv.symm (nov p' hp')
        · rw [List.mem_singleton.1 hp, List.mem_singleton.1 hp'] at hne; exact absurd rfl hne
    · left
      rw [e]; exact ⟨rfl, c⟩
  | some q0 =>
    right
    have hq0 := List.mem_of_find?_eq_some hf
    have hv0 : vert M q0 = vert M q := by
      have := List.find?_some hf
      rw [beq_iff_eq] at this
      exact ek_inj this
    have s0 := hQ q0 hq0
    have hm : mapQ M ip N Q (ek ip (vert M q)) = some (3 * N q0.1 + q0.2) := by unfold mapQ; rw [hf]; rfl
    have n0 := (Nfree q0.1 s0.1).1
    rw [hm]
    simp only [Option.getD_some]
    rw [if_neg (show ¬ 3 * N q0.1 + (q0.2 : Nat) = 0 by omega), decode_spec]
    have hne0 : q ≠ q0 := fun c => hn (c ▸ hq0)
    have uniq : ∀ p ∈ Q, vert M p = vert M q → p = q0 := by
      intro p hp hv
      rcases S.two hq s0 (hQ p hp) hv0.symm hv.symm with c | c | c
      · exact absurd c hne0
      · exact absurd (c ▸ hp) hn
      · exact c.symm
    have cell : ∀ p p', Spoke M l p → Spoke M l p' → (N p.1, p.2) = (N p'.1, p'.2) → p = p' := by
      intro p p' hp hp' e
      obtain ⟨e1, e2⟩ := Prod.mk.inj e
      exact Prod.ext (Ninj _ _ hp.1 hp'.1 e1) e2
    refine ⟨_, rfl, ⟨?_, ?_⟩, rfl, ?_⟩
    · have em : mapQ M ip N (Q ++ [q]) = mapQ M ip N Q := by
        funext t
        unfold mapQ
        rw [List.find?_append]
        by_cases c : t = ek ip (vert M q)
        · subst c; rw [hf]; rfl
        · have : ([q].find? fun q' => ek ip (vert M q') == t) = none := by
            rw [List.find?_eq_none]
            intro q' hq'
            rw [List.mem_singleton.1 hq', beq_iff_eq]
            exact fun c' => c c'.symm
          rw [this, Option.or_none]
      rw [em]; exact G.tab
    · intro p hp p' hp' hne hv
      simp only [Mesh.setAdj]
      rcases List.mem_append.1 hp with hp | hp <;> rcases List.mem_append.1 hp' with hp' | hp'
      · by_cases c : p = q0
        · subst c
          exact absurd (uniq p' hp' (hv.symm.trans hv0)).symm hne
        · rw [if_neg fun e => c (cell p q0 (hQ p hp) s0 e), if_neg fun e => hn (cell p q (hQ p hp) hq e ▸ hp)]
          exact G.lnk p hp p' hp' hne hv
      · rw [List.mem_singleton.1 hp'] at hv ⊢
        rw [uniq p hp hv, if_pos rfl]
      · rw [List.mem_singleton.1 hp] at hv ⊢
        rw [uniq p' hp' hv.symm, if_neg fun e => hne0 (cell q q0 hq s0 e), if_pos rfl]
      · rw [List.mem_singleton.1 hp, List.mem_singleton.1 hp'] at hne; exact absurd rfl hne
    · intro h hh
      simp only [Mesh.setAdj]
      rw [if_neg (hh q0 (by simp [hq0])), if_neg (hh q (by simp))]

/-- The internal sides of one new triangle. -/
theorem Sit.inner (S : Sit M mark base ip tref l new) (hg : ∀ n, g = some n → 1 ≤ n) {x : HE} (hx : Ext M l x) :
    ∀ (L : List (Fin 3)) (Q : List (HE × Fin 3)) (s : Mesh × Hash), Glued M ip (num (extSides M mark base l) new) Q s →
      (∀ q ∈ Q, Spoke M l q) → L.Nodup → (∀ j ∈ L, (x, j) ∉ Q) →
      s.1.tri (num (extSides M mark base l) new x) = (M.tri x.1).setV x.2 ip →
      (inner g (num (extSides M mark base l) new x) x.2 L s = .fail ∧ g = none) ∨
      ∃ s', inner g (num (extSides M mark base l) new x) x.2 L s = .ok s' ∧
        Glued M ip (num (extSides M mark base l) new) (Q ++ (L.filter (· ≠ x.2)).map fun j => (x, j)) s' ∧ s'.1.tri = s.1.tri ∧
        ∀ h, (∀ q' ∈ Q ++ (L.filter (· ≠ x.2)).map fun j => (x, j), h ≠ (num (extSides M mark base l) new q'.1, q'.2)) →
          s'.1.adj h = s.1.adj h := by
  intro L
  induction L with
  | nil =>
    intro Q s G _ _ _ _
    right
    exact ⟨s, rfl, by simpa using G, rfl, fun _ _ => rfl⟩
  | cons j L ih =>
    intro Q s G hQ hL hn ht
    rw [List.nodup_cons] at hL
    unfold Del2.inner
    by_cases c : j = x.2
    · rw [if_neg (not_not.2 c)]
      have := ih Q s G hQ hL.2 (fun j' h => hn j' (by simp [h])) ht
      rw [List.filter_cons_of_neg (by simpa using c)]
      exact this
    · rw [if_pos c, List.filter_cons_of_pos (by simpa using c), List.map_cons]
      have hq : Spoke M l (x, j) := ⟨hx, c⟩
      rcases S.glue hg G hQ hq (hn j (by simp)) ht with ⟨e, q⟩ | ⟨s1, e, G1, t1, a1⟩
      · left; simp only at e; rw [e]; exact ⟨rfl, q⟩
      · simp only at e
        rw [e]
        simp only
        have hQ1 : ∀ q ∈ Q ++ [(x, j)], Spoke M l q := by
          intro q hq'
          rcases List.mem_append.1 hq' with r | r
          · exact hQ q r
          · rw [List.mem_singleton.1 r]; exact hq
        rcases ih (Q ++ [(x, j)]) s1 G1 hQ1 hL.2 (by
            intro j' hj' r
            rcases List.mem_append.1 r with r | r
            · exact hn j' (by simp [hj']) r
            · have := (Prod.mk.inj (List.mem_singleton.1 r)).2
              exact hL.1 (this ▸ hj')) (by rw [t1]; exact ht) with ⟨e', q⟩ | ⟨s2, e', G2, t2, a2⟩
        · left; exact ⟨e', q⟩
        · right
          have app : Q ++ [(x, j)] ++ (L.filter (· ≠ x.2)).map (fun j => (x, j)) =
              Q ++ (x, j) :: (L.filter (· ≠ x.2)).map (fun j => (x, j)) := by simp
          rw [app] at G2 a2
          refine ⟨s2, e', G2, t2.trans t1, fun h hh => (a2 h hh).trans (a1 h fun q' hq' => hh q' ?_)⟩
          rcases List.mem_append.1 hq' with r | r
          · simp [r]
          · rw [List.mem_singleton.1 r]; simp

/-- The internal sides of the triangles over `P`. -/
def spokes (P : List HE) : List (HE × Fin 3) := P.flatMap fun x => (([0, 1, 2] : List (Fin 3)).filter (· ≠ x.2)).map fun j => (x, j)

theorem mem_spokes {P : List HE} {q : HE × Fin 3} : q ∈ spokes P ↔ q.1 ∈ P ∧ q.2 ≠ q.1.2 := by
  unfold spokes
  simp only [List.mem_flatMap, List.mem_map, List.mem_filter, decide_eq_true_eq]
  constructor
  · rintro ⟨x, hx, j, ⟨_, hj⟩, rfl⟩
    exact ⟨hx, hj⟩
  · rintro ⟨h1, h2⟩
    exact ⟨q.1, h1, q.2, ⟨(by decide : ∀ i : Fin 3, i ∈ [0, 1, 2]) q.2, h2⟩, rfl⟩

/-- State after the external sides `P`. -/
structure DInv (M : Mesh) (mark : Nat → Nat) (ip : Nat) (N : HE → Nat) (P : List HE) (a : Acc) : Prop where
  n : a.n = P.length
  tri : ∀ k, (∀ x ∈ P, k ≠ N x) → a.M.tri k = M.tri k
  triN : ∀ x ∈ P, a.M.tri (N x) = (M.tri x.1).setV x.2 ip
  mark : ∀ k, (∀ x ∈ P, k ≠ N x) → a.mark k = mark k
  out : ∀ h, (∀ x ∈ P, h.1 ≠ N x) → (∀ x ∈ P, M.adj x ≠ some h) → a.M.adj h = M.adj h
  back : ∀ x ∈ P, ∀ h, M.adj x = some h → a.M.adj h = some (N x, x.2)
  ext : ∀ x ∈ P, a.M.adj (N x, x.2) = M.adj x
  glued : Glued M ip N (spokes P) (a.M, a.h)

theorem Sit.side (S : Sit M mark base ip tref l new) (hg : ∀ n, g = some n → 1 ≤ n) {P R : List HE} {x : HE} {a : Acc}
    (hX : extSides M mark base l = P ++ x :: R) (D : DInv M mark ip (num (extSides M mark base l) new) P a)
    {nei : Fin 3 → Option HE} (hnei : nei x.2 = M.adj x) :
    (side g new base ip x.1 nei x.2 a = .fail ∧ g = none) ∨
    ∃ a', side g new base ip x.1 nei x.2 a = .ok a' ∧ DInv M mark ip (num (extSides M mark base l) new) (P ++ [x]) a' := by
  have hxX : x ∈ extSides M mark base l := by rw [hX]; simp
  have hx : Ext M l x := S.mem.1 hxX
  have hPe : ∀ y ∈ P, Ext M l y := fun y hy => S.mem.1 (by rw [hX]; simp [hy])
  have nd := nodup_extSides (M := M) (mark := mark) (base := base) S.cav.nd
  have hxP : x ∉ P := by
    rw [hX, List.nodup_append] at nd
    exact fun c => nd.2.2 x c x (by simp) rfl
  have hnum : num (extSides M mark base l) new x = new a.n := by
    unfold num
    rw [D.n]
    congr 1
    rw [hX, List.idxOf_append_of_notMem hxP]
    simp
  have Nfree : ∀ y, Ext M l y → num (extSides M mark base l) new y ≠ 0 ∧ ¬ M.live (num (extSides M mark base l) new y) := fun y hy => S.num_free hy
  have Ninj : ∀ y z, Ext M l y → Ext M l z → num (extSides M mark base l) new y = num (extSides M mark base l) new z → y = z :=
    fun y z hy hz h => S.num_inj hy hz h
  have IN := S.inner hg hx (x := x) (g := g)
  generalize hN : num (extSides M mark base l) new = N at *
  have hlive : M.live x.1 := S.cav.live _ hx.1
  -- links to live triangles
  have tgt : ∀ y, Ext M l y → ∀ h, M.adj y = some h → M.live h.1 ∧ M.adj h = some y ∧ h.1 ∉ l := by
    intro y hy h e
    obtain ⟨q1, q2, _⟩ := S.valid.link y h (S.cav.live _ hy.1) e
    exact ⟨q1, q2, hy.2 h e⟩
  have xold : ∀ y ∈ P, x.1 ≠ N y := fun y hy c => (Nfree y (hPe y hy)).2 (c ▸ hlive)
  unfold Del2.side
  -- the side is external
  have hext : isExt a.mark base (nei x.2) = true := by
    rw [hnei]
    have := (isExt_iff S.cav.mark (M.adj x)).2 hx.2
    unfold isExt at this ⊢
    cases e : M.adj x with
    | none => rfl
    | some h =>
      rw [e] at this
      simp only at this ⊢
      rw [D.mark h.1 fun y hy c => (Nfree y (hPe y hy)).2 (c ▸ (tgt x hx h e).1)]
      exact this
  rw [if_pos hext]
  simp only
  rw [← hnum, hnei]
  -- the mesh before the internal sides
  have rowx : a.M.adj (x.1, x.2) = M.adj x := by
    apply D.out _ xold
    intro y hy c
    exact (tgt y (hPe y hy) _ c).2.2 hx.1
  have trix : a.M.tri x.1 = M.tri x.1 := D.tri _ xold
  generalize hM1 : ((a.M.setTri (N x) ((a.M.tri x.1).setV x.2 ip)).setAdj (N x, x.2)
      ((a.M.setTri (N x) ((a.M.tri x.1).setV x.2 ip)).adj (x.1, x.2))).backLink (M.adj x) (N x, x.2) = M1
  have t1 : ∀ k, M1.tri k = if k = N x then (M.tri x.1).setV x.2 ip else a.M.tri k := by
    intro k
    rw [← hM1, backLink_tri]
    simp only [Mesh.setAdj, Mesh.setTri]
    rw [trix]
  have a1 : ∀ h, M1.adj h = if M.adj x = some h then some (N x, x.2) else if h = (N x, x.2) then M.adj x else a.M.adj h := by
    intro h
    rw [← hM1, backLink_adj]
    simp only [Mesh.setAdj, Mesh.setTri]
    rw [rowx]
  have hNl : ∀ h, M.adj x = some h → ∀ y, Ext M l y → h.1 ≠ N y := fun h e y hy c => (Nfree y hy).2 (c ▸ (tgt x hx h e).1)
  have G1 : Glued M ip N (spokes P) (M1, a.h) := by
    refine ⟨D.glued.tab, ?_⟩
    intro q hq q' hq' hne hv
    have q1 := (mem_spokes.1 hq).1
    simp only
    rw [a1, if_neg fun c => hNl _ c q.1 (hPe _ q1) rfl, if_neg]
    · exact D.glued.lnk q hq q' hq' hne hv
    · intro c
      have := Ninj _ _ (hPe _ q1) hx (Prod.mk.inj c).1
      exact hxP (this ▸ q1)
  have hQ : ∀ q ∈ spokes P, Spoke M l q := fun q hq => ⟨hPe _ (mem_spokes.1 hq).1, (mem_spokes.1 hq).2⟩
  rcases IN [0, 1, 2] (spokes P) (M1, a.h) G1 hQ (by decide) (fun j _ c => hxP (mem_spokes.1 c).1)
      (by simp only; rw [t1, if_pos rfl]) with ⟨e, q⟩ | ⟨s', e, G2, t2, a2⟩
  · left
    rw [e]; exact ⟨rfl, q⟩
  · right
    rw [e]
    refine ⟨_, rfl, ?_⟩
    have sp : spokes P ++ (([0, 1, 2] : List (Fin 3)).filter (· ≠ x.2)).map (fun j => (x, j)) = spokes (P ++ [x]) := by
      unfold spokes; rw [List.flatMap_append]; simp
    rw [sp] at G2 a2
    simp only at t2 a2
    have a2' : ∀ h, (∀ y ∈ P ++ [x], h.1 ≠ N y ∨ h.2 = y.2) → s'.1.adj h = M1.adj h := by
      intro h hh
      apply a2
      intro q hq c
      obtain ⟨q1, q2⟩ := mem_spokes.1 hq
      rcases hh q.1 q1 with r | r
      · exact r (by rw [c])
      · rw [c] at r; exact q2 r
    constructor
    · simp only; rw [D.n]; simp
    · intro k hk
      simp only
      rw [t2, t1, if_neg (hk x (by simp))]
      exact D.tri k fun y hy => hk y (by simp [hy])
    · intro y hy
      simp only
      rw [t2, t1]
      rcases List.mem_append.1 hy with hy | hy
      · rw [if_neg fun c => hxP (Ninj _ _ (hPe y hy) hx c ▸ hy)]
        exact D.triN y hy
      · rw [List.mem_singleton.1 hy, if_pos rfl]
    · intro k hk
      simp only
      rw [setM_ne _ _ (hk x (by simp))]
      exact D.mark k fun y hy => hk y (by simp [hy])
    · intro h hh hh'
      simp only
      rw [a2' h fun y hy => Or.inl (hh y hy), a1, if_neg (hh' x (by simp)), if_neg fun c => hh x (by simp) (by rw [c])]
      exact D.out h (fun y hy => hh y (by simp [hy])) fun y hy => hh' y (by simp [hy])
    · intro y hy h e
      have hye : Ext M l y := by
        rcases List.mem_append.1 hy with hy | hy
        · exact hPe y hy
        · rw [List.mem_singleton.1 hy]; exact hx
      obtain ⟨p1, p2, p3⟩ := tgt y hye h e
      simp only
      rw [a2' h fun z hz => Or.inl fun c => (Nfree z (by
        rcases List.mem_append.1 hz with hz | hz
        · exact hPe z hz
        · rw [List.mem_singleton.1 hz]; exact hx)).2 (c ▸ p1), a1]
      rcases List.mem_append.1 hy with hy | hy
      · rw [if_neg, if_neg fun c => (Nfree x hx).2 (by rw [c] at p1; exact p1)]
        · exact D.back y hy h e
        · intro c
          have := (tgt x hx h c).2.1
          rw [p2] at this
          cases this
          exact hxP hy
      · rw [List.mem_singleton.1 hy] at e ⊢
        rw [if_pos e]
    · intro y hy
      have hye : Ext M l y := by
        rcases List.mem_append.1 hy with hy | hy
        · exact hPe y hy
        · rw [List.mem_singleton.1 hy]; exact hx
      simp only
      rw [a2' (N y, y.2) (by
        intro z hz
        by_cases c : y = z
        · right; rw [c]
        · left
          intro c'
          refine c (Ninj _ _ hye ?_ c')
          rcases List.mem_append.1 hz with hz | hz
          · exact hPe z hz
          · rw [List.mem_singleton.1 hz]; exact hx), a1, if_neg fun c => hNl _ c y hye rfl]
      rcases List.mem_append.1 hy with hy | hy
      · rw [if_neg fun c => hxP (Ninj _ _ (hPe y hy) hx (Prod.mk.inj c).1 ▸ hy)]
        exact D.ext y hy
      · rw [List.mem_singleton.1 hy, if_pos rfl]
    · exact G2

theorem Sit.sidesOf (S : Sit M mark base ip tref l new) (hg : ∀ n, g = some n → 1 ≤ n) {k : Nat} {nei : Fin 3 → Option HE}
    (hnei : ∀ i, nei i = M.adj (k, i)) : ∀ (L : List (Fin 3)) (P R : List HE) (a : Acc),
      extSides M mark base l = P ++ (L.filter fun i => isExt mark base (M.adj (k, i))).map (fun i => (k, i)) ++ R → k ∈ l →
      DInv M mark ip (num (extSides M mark base l) new) P a →
      (sidesOf g new base ip k nei L a = .fail ∧ g = none) ∨
      ∃ a', sidesOf g new base ip k nei L a = .ok a' ∧ DInv M mark ip (num (extSides M mark base l) new)
        (P ++ (L.filter fun i => isExt mark base (M.adj (k, i))).map (fun i => (k, i))) a' := by
  intro L
  induction L with
  | nil => intro P R a _ _ D; right; exact ⟨a, rfl, by simpa using D⟩
  | cons i L ih =>
    intro P R a hX hk D
    unfold Del2.sidesOf
    by_cases c : isExt mark base (M.adj (k, i)) = true
    · rw [List.filter_cons_of_pos (p := fun i => isExt mark base (M.adj (k, i))) c, List.map_cons] at hX ⊢
      have hX' : extSides M mark base l = P ++ (k, i) :: ((L.filter fun i => isExt mark base (M.adj (k, i))).map (fun i => (k, i)) ++ R) := by
        rw [hX]; simp
      rcases S.side (g := g) hg hX' D (nei := nei) (hnei i) with ⟨e, q⟩ | ⟨a1, e, D1⟩
      · left; simp only at e; rw [e]; exact ⟨rfl, q⟩
      · simp only at e
        rw [e]
        have hX2 : extSides M mark base l = (P ++ [(k, i)]) ++ (L.filter fun i => isExt mark base (M.adj (k, i))).map (fun i => (k, i)) ++ R := by
          rw [hX]; simp
        have := ih (P ++ [(k, i)]) R a1 hX2 hk D1
        rw [show P ++ (k, i) :: (L.filter fun i => isExt mark base (M.adj (k, i))).map (fun i => (k, i)) =
          (P ++ [(k, i)]) ++ (L.filter fun i => isExt mark base (M.adj (k, i))).map (fun i => (k, i)) by simp]
        exact this
    · rw [List.filter_cons_of_neg (p := fun i => isExt mark base (M.adj (k, i))) c] at hX ⊢
      have e : Del2.side g new base ip k nei i a = .ok a := by
        unfold Del2.side
        rw [if_neg]
        rw [hnei]
        cases e : M.adj (k, i) with
        | none => rw [e] at c; exact absurd rfl c
        | some h =>
          rw [e] at c
          unfold isExt at c ⊢
          simp only at c ⊢
          rw [D.mark]
          · exact c
          · intro y hy c'
            have hye : Ext M l y := S.mem.1 (by rw [hX]; simp [hy])
            exact (S.num_free hye).2 (c' ▸ (S.valid.link _ _ (S.cav.live k hk) e).1)
      rw [e]
      exact ih P R a hX hk D

theorem Sit.trias (S : Sit M mark base ip tref l new) (hg : ∀ n, g = some n → 1 ≤ n) : ∀ (L : List Nat) (P : List HE) (a : Acc),
      extSides M mark base l = P ++ extSides M mark base L → (∀ k ∈ L, k ∈ l) →
      DInv M mark ip (num (extSides M mark base l) new) P a →
      (trias g new base ip L a = .fail ∧ g = none) ∨
      ∃ a', trias g new base ip L a = .ok a' ∧ DInv M mark ip (num (extSides M mark base l) new) (extSides M mark base l) a' := by
  intro L
  induction L with
  | nil =>
    intro P a hX _ D
    right
    refine ⟨a, rfl, ?_⟩
    have e : P = extSides M mark base l := by rw [hX]; unfold extSides; simp
    rw [← e] at D ⊢
    exact D
  | cons k L ih =>
    intro P a hX hL D
    have hk := hL k (by simp)
    have hX' : extSides M mark base l = P ++ (([0, 1, 2] : List (Fin 3)).filter fun i => isExt mark base (M.adj (k, i))).map (fun i => (k, i)) ++
        extSides M mark base L := by
      rw [hX]
      unfold extSides
      rw [List.flatMap_cons, List.append_assoc]
    have hPe : ∀ y ∈ P, Ext M l y := fun y hy => S.mem.1 (by rw [hX]; simp [hy])
    unfold Del2.trias
    have hnei : ∀ i, a.M.adj (k, i) = M.adj (k, i) := by
      intro i
      apply D.out
      · intro y hy c
        exact (S.num_free (hPe y hy)).2 (c ▸ S.cav.live k hk)
      · intro y hy c
        exact (hPe y hy).2 _ c hk
    rcases S.sidesOf (g := g) hg (k := k) (nei := fun i => a.M.adj (k, i)) hnei [0, 1, 2] P _ a hX' hk D with ⟨e, q⟩ | ⟨a1, e, D1⟩
    · left; rw [e]; exact ⟨rfl, q⟩
    · rw [e]
      exact ih _ a1 hX' (fun k' hk' => hL k' (by simp [hk'])) D1

theorem dinv0 (N : HE → Nat) (n : Nat) : DInv M mark ip N [] ⟨M, mark, hashNew n (3 * n), 0⟩ where
  n := rfl
  tri := fun _ _ => rfl
  triN := fun x hx => by simp at hx
  mark := fun _ _ => rfl
  out := fun _ _ _ => rfl
  back := fun x hx => by simp at hx
  ext := fun x hx => by simp at hx
  glued := ⟨Hash.inv_hashNew false n (3 * n) (by omega), fun q hq => by simp [spokes] at hq⟩

end Mmg.Del2
