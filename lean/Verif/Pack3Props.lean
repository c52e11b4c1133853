/- Property C11: the final packing of a 3D mesh is a consistent renumbering (`Pack3Model`). -/
import Verif.Pack3Tet
import Verif.PoolProps
import Mathlib.Data.Set.Function
import Mathlib.Algebra.Order.Group.Unbundled.Int
import Mathlib.Order.Interval.Finset.Nat
import Mathlib.Order.Interval.Set.Basic
import Mathlib.Data.Finset.Card

namespace Mmg.Pack3

variable {α ν β K : Type}

/-! ### Specification -/

/-- Point `i` is in use. -/
def Used (s : Pts α ν) (i : Nat) : Prop := 1 ≤ i ∧ i ≤ s.np ∧ vok (s.pt i) = true

/-- What is asked of the mesh: one used point, the last counted tetrahedron is valid, the adjacency table is symmetric if
there is one, the vertices of valid elements are used points. -/
structure Ready (M : Mesh α ν β K) : Prop where
  point : ∃ i, Used M.pts i
  last : M.tets.ne ≠ 0 → eok (M.tets.el M.tets.ne) = true
  adja : M.hasAdja = true → AdjOK M.tets
  tets : ∀ k, Val M.tets k → ∀ i < 4, Used M.pts ((M.tets.el k).v i)
  prisms : ∀ k, ValE M.prisms k → ∀ i < 6, Used M.pts ((M.prisms.el k).v i)
  quads : ∀ k, ValE M.quads k → ∀ i < 4, Used M.pts ((M.quads.el k).v i)

/-- The mesh `M'` is `M` with points renumbered by `new`, tetrahedra by `τ`, prisms by `π`, quadrilaterals by `κ`. -/
structure Consistent (M M' : Mesh α ν β K) (new τ π κ : Nat → Nat) : Prop where
  points : Set.BijOn new {i | Used M.pts i} (Set.Icc 1 M'.pts.np)
  point : ∀ i, Used M.pts i →
    (M'.pts.pt (new i)).dat = (M.pts.pt i).dat ∧ (M'.pts.pt (new i)).xp = (M.pts.pt i).xp ∧
    (M'.pts.pt (new i)).ref = |(M.pts.pt i).ref| ∧
    (M'.pts.pt (new i)).tag = if (M.pts.pt i).tag &&& NOSURF ≠ 0 then (M.pts.pt i).tag &&& ~~~(NOSURF ||| REQ)
      else (M.pts.pt i).tag
  unused : ∀ j, M'.pts.np < j → j ≤ M.pts.np → vok (M'.pts.pt j) = false
  sols : List.Forall₂ (fun s s' => s'.size = s.size ∧ s'.np = M'.pts.np ∧
    ∀ i, Used M.pts i → ∀ c < s.size, s'.m (new i * s.size + c) = s.m (i * s.size + c)) M.sols M'.sols
  tets : Set.BijOn τ {k | Val M.tets k} (Set.Icc 1 M'.tets.ne)
  tet : ∀ k, Val M.tets k → (M'.tets.el (τ k)).dat = (M.tets.el k).dat ∧
    ∀ i < 4, (M'.tets.el (τ k)).v i = new ((M.tets.el k).v i)
  adja : M.hasAdja = true → ∀ k, Val M.tets k → ∀ i < 4,
    M'.tets.adja (idx (τ k) i) = relabel τ (M.tets.adja (idx k i))
  prisms : Set.BijOn π {k | ValE M.prisms k} {k | ValE M'.prisms k}
  prism : ∀ k, ValE M.prisms k → (M'.prisms.el (π k)).dat = (M.prisms.el k).dat ∧
    ∀ i < 6, (M'.prisms.el (π k)).v i = new ((M.prisms.el k).v i)
  quads : Set.BijOn κ {k | ValE M.quads k} {k | ValE M'.quads k}
  quad : ∀ k, ValE M.quads k → (M'.quads.el (κ k)).dat = (M.quads.el k).dat ∧
    ∀ i < 4, (M'.quads.el (κ k)).v i = new ((M.quads.el k).v i)

/-! ### Lemmas -/

theorem clean_corner (p : Pt α ν) : has (clean p).tag CRN = has p.tag CRN := by
  unfold clean
  dsimp only
  split_ifs with h
  · unfold has
    rw [BitVec.and_assoc, BitVec.and_assoc, show ~~~NOSURF &&& (~~~REQ &&& CRN) = CRN by decide]
  · rfl

theorem delTail_spec (z : Pt α ν) (s : Pts α ν) :
    (delTail z (s.np + 1) s).np = lastUsed (fun j => vok (s.pt j)) s.np ∧
    (∀ j, j ≤ lastUsed (fun j => vok (s.pt j)) s.np → (delTail z (s.np + 1) s).pt j = s.pt j) ∧
    (∀ j, s.np < j → (delTail z (s.np + 1) s).pt j = s.pt j) ∧
    (∀ j, lastUsed (fun j => vok (s.pt j)) s.np < j → j ≤ s.np → vok ((delTail z (s.np + 1) s).pt j) = false) := by
  obtain ⟨la, lb, lc⟩ := lastUsed_spec (fun j => vok (s.pt j)) s.np
  by_cases h0 : s.np = 0
  · have e : delTail z (s.np + 1) s = s := by
      simp only [delTail, h0]
      simp
    rw [e, h0]
    exact ⟨rfl, fun j _ => rfl, fun j _ => rfl, fun j a b => by simp only [lastUsed] at a; omega⟩
  · by_cases hv : vok (s.pt s.np) = true
    · have e : delTail z (s.np + 1) s = s := by simp [delTail, hv]
      have el : lastUsed (fun j => vok (s.pt j)) s.np = s.np := by
        by_contra hc
        have := lc s.np (by omega) (le_refl _)
        rw [hv] at this; simp at this
      rw [e, el]
      exact ⟨rfl, fun j _ => rfl, fun j _ => rfl, fun j a b => by omega⟩
    · have hv' : vok (s.pt s.np) = false := by simpa using hv
      have hpt : ∀ j, vok ((delLast z s).pt j) = vok (s.pt j) := by
        intro j
        show vok (upd s.pt s.np _ j) = _
        by_cases hj : j = s.np
        · rw [hj, upd_same, vok_nul, hv']
        · rw [upd_ne _ _ hj]
      have hnp : (delLast z s).np = lastUsed (fun j => vok (s.pt j)) s.np := by
        show lastUsed (fun j => vok ((delLast z s).pt j)) s.np = _
        rw [show (fun j => vok ((delLast z s).pt j)) = fun j => vok (s.pt j) from funext hpt]
      have hlt : lastUsed (fun j => vok (s.pt j)) s.np ≠ s.np := by
        intro h
        rcases lb with lb | lb
        · omega
        · rw [h] at lb; exact hv lb
      have e : delTail z (s.np + 1) s = delLast z s := by
        obtain ⟨f, hf⟩ : ∃ f, s.np + 1 = f + 1 + 1 := ⟨s.np - 1, by omega⟩
        rw [hf]
        simp only [delTail]
        rw [if_pos (by simp [hv', h0])]
        rw [if_neg]
        rw [hpt, hnp]
        rcases lb with lb | lb
        · simp [lb]
        · simp [lb]
      rw [e]
      refine ⟨hnp, fun j hj => upd_ne _ _ (by omega), fun j hj => upd_ne _ _ (by omega), fun j a b => ?_⟩
      rw [hpt]; exact lc j a b

theorem range'_nodup (k n : Nat) : (List.range' k n).Nodup := List.nodup_range'

theorem renumber_el {nv n : Nat} {pt : Nat → Pt α ν} {el : Nat → Elt β} {k : Nat} (h1 : 1 ≤ k) (h2 : k ≤ n)
    (h3 : eok (el k) = true) : (renumber nv n pt el k).dat = (el k).dat ∧
      ∀ i < nv, (renumber nv n pt el k).v i = (pt ((el k).v i)).tmp := by
  unfold renumber
  rw [if_pos ⟨h1, h2, h3⟩]
  exact ⟨rfl, fun i hi => if_pos hi⟩

theorem renumber_eok {nv n : Nat} {pt : Nat → Pt α ν} {el : Nat → Elt β} {k : Nat}
    (h : eok (renumber nv n pt el k) = true) (hk : 1 ≤ k ∧ k ≤ n) : eok (el k) = true := by
  by_contra hc
  unfold renumber at h
  rw [if_neg (fun h => hc h.2.2)] at h
  exact hc h

/-- What is known of the points after the packing. -/
structure PtsOK (npmax : Nat) (s : Pts α ν) (xn : Nat → ν) (r : Nat × Nat × (Nat → Pt α ν)) (s' : Pts α ν)
    (L : List (Nat × Nat)) : Prop where
  np : s'.np = L.length
  pos : 1 ≤ L.length
  mark : ∀ p ∈ L, r.2.2 p.2 = stamp p.1 { s.pt p.2 with tmp := 0 }
  pt : ∀ p ∈ L, s'.pt p.1 = { (if p.1 = s'.np ∧ p.1 = p.2 ∧ 1 < lastUsed (fun j => vok (s.pt j)) s.np then
    stamp p.1 { s.pt p.2 with tmp := 0 } else setNormal xn (stamp p.1 { s.pt p.2 with tmp := 0 })) with tmp := 0 }
  above : ∀ j, s'.np < j → j ≤ s.np → vok (s'.pt j) = false
  le : L.length ≤ s.np
  nil : s'.npnil = if s'.np + 1 ≥ npmax then 0 else s'.np + 1
  link : ∀ j, s'.np < j → j + 1 < npmax → (s'.pt j).tmp = j + 1
  keep : ∀ j, s.np < j → npmax ≤ j + 1 → s'.pt j = s.pt j
  corners : r.2.1 = L.countP fun p => has (s.pt p.2).tag CRN

theorem points_plan (z : Pt α ν) (xn : Nat → ν) (npmax : Nat) {s : Pts α ν} (hu : ∃ i, Used s i) :
    ∃ s', packPts z xn npmax { s with pt := (mark s.np s.pt).2.2 } = some s' ∧
      PtsOK npmax s xn (mark s.np s.pt) s' (plan (fun j => vok (s.pt j)) (s.np + 1) 1 (s.np + 1)) := by
  obtain ⟨i0, u1, u2, u3⟩ := hu
  have hpl := plan_spec (fun j => vok (s.pt j)) (s.np + 1) 1 (s.np + 1) (by omega)
  obtain ⟨la, lb, lc⟩ := lastUsed_spec (fun j => vok (s.pt j)) s.np
  have hl1 : 1 ≤ lastUsed (fun j => vok (s.pt j)) s.np := by
    by_contra hc
    have := lc i0 (by omega) u2
    rw [u3] at this; simp at this
  have htrim := plan_trim (fun j => vok (s.pt j)) (s.np + 1) (lastUsed (fun j => vok (s.pt j)) s.np + 1) 1 (s.np + 1)
    (lastUsed (fun j => vok (s.pt j)) s.np + 1) (by omega) (by omega) (by omega) (fun j a b => lc j (by omega) (by omega))
  -- the marking
  have hm : mark s.np s.pt = ((plan (fun j => vok (s.pt j)) (s.np + 1) 1 (s.np + 1)).length,
      (plan (fun j => vok (s.pt j)) (s.np + 1) 1 (s.np + 1)).foldl markOne
        (0, fun k => if 1 ≤ k ∧ k ≤ s.np then { s.pt k with tmp := 0 } else s.pt k)) := by
    unfold mark
    dsimp only
    rw [markLoop_plan (fun j => vok (s.pt j)) (s.np + 1) 1 (s.np + 1) 0 _ (by omega) (by omega) (fun j => by
      split_ifs <;> rfl)]
    simp
  obtain ⟨f1, f2, f3⟩ := foldl_markOne (plan (fun j => vok (s.pt j)) (s.np + 1) 1 (s.np + 1))
    (0, fun k => if 1 ≤ k ∧ k ≤ s.np then { s.pt k with tmp := 0 } else s.pt k) hpl.2.2.1
  have hcount : (mark s.np s.pt).2.1 = (plan (fun j => vok (s.pt j)) (s.np + 1) 1 (s.np + 1)).countP
      fun p => has (s.pt p.2).tag CRN := by
    rw [hm]
    dsimp only
    rw [f1, Nat.zero_add]
    apply List.countP_congr
    intro p hp
    dsimp only [stamp]
    rw [clean_corner]
    split_ifs <;> exact Iff.rfl
  have hmk : ∀ p ∈ plan (fun j => vok (s.pt j)) (s.np + 1) 1 (s.np + 1), (mark s.np s.pt).2.2 p.2 =
      stamp p.1 { s.pt p.2 with tmp := 0 } := by
    intro p hp
    rw [hm]
    dsimp only
    rw [f2 p hp]
    have := (hpl.2.1 p.2).1 (List.mem_map_of_mem hp)
    dsimp only
    rw [if_pos ⟨this.1, by omega⟩]
  have hvok : ∀ j, vok ((mark s.np s.pt).2.2 j) = vok (s.pt j) := by
    intro j
    by_cases hj : j ∈ (plan (fun j => vok (s.pt j)) (s.np + 1) 1 (s.np + 1)).map Prod.snd
    · obtain ⟨p, hp, rfl⟩ := List.mem_map.1 hj
      rw [hmk p hp, vok_stamp]; rfl
    · rw [hm]
      dsimp only
      rw [f3 j hj]
      dsimp only
      split_ifs <;> rfl
  -- the points
  generalize hpt : (mark s.np s.pt).2.2 = pt1 at *
  have hfun : (fun j => vok (pt1 j)) = fun j => vok (s.pt j) := funext hvok
  obtain ⟨d1, d2, d3, d4⟩ := delTail_spec z { s with pt := pt1 }
  dsimp only at d1 d2 d3 d4
  rw [hfun] at d1 d2 d4
  rw [htrim] at hpl hcount hmk ⊢
  generalize hn : lastUsed (fun j => vok (s.pt j)) s.np = n at *
  have hokn : vok (s.pt n) = true := by rcases lb with lb | lb; omega; exact lb
  generalize hs1 : delTail z (s.np + 1) { s with pt := pt1 } = s1 at *
  obtain ⟨p1, p2, p3, p4, p5⟩ := ptLoop_plan z xn (fun j => vok (s.pt j)) (n + 1) 1 n s1.pt (le_refl _) hl1 (by omega) hokn
    (fun j a b => by rw [d2 j b]; exact hvok j)
  have hlen : 1 ≤ (plan (fun j => vok (s.pt j)) (n + 1) 1 (n + 1)).length := by
    have : n ∈ (plan (fun j => vok (s.pt j)) (n + 1) 1 (n + 1)).map Prod.snd := by
      rw [← htrim, (plan_spec (fun j => vok (s.pt j)) (s.np + 1) 1 (s.np + 1) (by omega)).2.1]
      exact ⟨hl1, by omega, hokn⟩
    have := List.length_pos_of_mem this
    rwa [List.length_map] at this
  have hlen2 : (plan (fun j => vok (s.pt j)) (n + 1) 1 (n + 1)).length ≤ n := by
    have h1 : ∀ x ∈ (plan (fun j => vok (s.pt j)) (n + 1) 1 (n + 1)).map Prod.snd, 1 ≤ x ∧ x ≤ n := by
      intro x hx
      have := ((plan_spec (fun j => vok (s.pt j)) (n + 1) 1 (n + 1) (by omega)).2.1 x).1 hx
      omega
    have := Mmg.Pool.nodup_length_le hpl.2.2.1 h1
    rwa [List.length_map] at this
  generalize plan (fun j => vok (s.pt j)) (n + 1) 1 (n + 1) = L at *
  rw [show 1 + L.length - 1 = L.length by omega] at p1 p2
  refine ⟨⟨L.length, (relink L.length npmax (ptLoop z xn (n + 1) 1 n s1.pt).2).1,
    (relink L.length npmax (ptLoop z xn (n + 1) 1 n s1.pt).2).2⟩, ?_, ?_⟩
  · unfold packPts
    dsimp only
    rw [hs1, d1, if_neg (by omega), p1]
  · refine ⟨rfl, hlen, by rw [hpt]; exact hmk, ?_, ?_, by omega, rfl, ?_, ?_, hcount⟩
    · intro p hp
      have hp1 : p.1 ∈ List.range' 1 L.length := by rw [← hpl.1]; exact List.mem_map_of_mem hp
      rw [List.mem_range'_1] at hp1
      have hp2 := (hpl.2.1 p.2).1 (List.mem_map_of_mem hp)
      have hp2n : p.2 ≤ n := by
        by_contra hc
        have := lc p.2 (by omega) (by omega)
        rw [this] at hp2; simp at hp2
      dsimp only [relink]
      rw [if_pos ⟨hp1.1, by omega⟩, p2 p hp, d2 p.2 hp2n, hmk p hp, hn]
    · intro j a b
      dsimp only at a ⊢
      have e : vok ((relink L.length npmax (ptLoop z xn (n + 1) 1 n s1.pt).2).2 j) =
          vok ((ptLoop z xn (n + 1) 1 n s1.pt).2 j) := by
        dsimp only [relink]
        split_ifs <;> rfl
      rw [e]
      rcases Nat.lt_or_ge n j with h | h
      · rw [p4 j h]; exact d4 j h b
      · exact p5 j (by omega) h
    · intro j a b
      dsimp only at a
      have hnil : (if L.length + 1 ≥ npmax then 0 else L.length + 1) = L.length + 1 := if_neg (by omega)
      dsimp only [relink]
      rw [hnil, if_neg (by omega), if_pos ⟨by omega, by omega, b⟩]
    · intro j a b
      dsimp only [relink]
      rw [if_neg (by omega), if_neg (by omega), p4 j (by omega), d3 j a]
      have hj : j ∉ (plan (fun j => vok (s.pt j)) (s.np + 1) 1 (s.np + 1)).map Prod.snd := by
        intro hj
        have := ((plan_spec (fun j => vok (s.pt j)) (s.np + 1) 1 (s.np + 1) (by omega)).2.1 j).1 hj
        omega
      have hj3 := f3 j hj
      dsimp only at hj3
      rw [if_neg (by omega)] at hj3
      rw [← hj3, ← hpt, hm]

theorem setNormal_frame (xn : Nat → ν) (p : Pt α ν) : (setNormal xn p).dat = p.dat ∧ (setNormal xn p).xp = p.xp ∧
    (setNormal xn p).ref = p.ref ∧ (setNormal xn p).tag = p.tag := by
  unfold setNormal; split_ifs <;> exact ⟨rfl, rfl, rfl, rfl⟩

theorem clean_tag (p : Pt α ν) : (clean p).tag = if p.tag &&& NOSURF ≠ 0 then p.tag &&& ~~~(NOSURF ||| REQ)
    else p.tag := by
  unfold clean has
  dsimp only
  by_cases h : p.tag &&& NOSURF ≠ 0
  · rw [if_pos (by simpa using h), if_pos h, BitVec.and_assoc, show ~~~NOSURF &&& ~~~REQ = ~~~(NOSURF ||| REQ) by decide]
  · rw [if_neg (by simpa using h), if_neg h]

theorem packSol_plan {np : Nat} {pt : Nat → Pt α ν} (hu : ∃ i, 1 ≤ i ∧ i ≤ np ∧ vok (pt i) = true) (q : Sol K) :
    ∃ q', packSol np pt q = some q' ∧ q'.size = q.size ∧
      q'.np = (plan (fun j => vok (pt j)) (np + 1) 1 (np + 1)).length ∧
      ∀ p ∈ plan (fun j => vok (pt j)) (np + 1) 1 (np + 1), ∀ c < q.size,
        q'.m (p.1 * q.size + c) = q.m (p.2 * q.size + c) := by
  obtain ⟨i0, u1, u2, u3⟩ := hu
  obtain ⟨la, lb, lc⟩ := lastUsed_spec (fun j => vok (pt j)) np
  have hl1 : 1 ≤ lastUsed (fun j => vok (pt j)) np := by
    by_contra hc
    have := lc i0 (by omega) u2
    rw [u3] at this; simp at this
  have htrim := plan_trim (fun j => vok (pt j)) (np + 1) (lastUsed (fun j => vok (pt j)) np + 1) 1 (np + 1)
    (lastUsed (fun j => vok (pt j)) np + 1) (by omega) (by omega) (by omega) (fun j a b => lc j (by omega) (by omega))
  have hpl := plan_spec (fun j => vok (pt j)) (np + 1) 1 (np + 1) (by omega)
  unfold packSol
  dsimp only
  rw [if_neg (by omega), solLoop_plan (fun j => vok (pt j)) q.size _ 1 _ q.m hl1 (by omega)
    (by rcases lb with lb | lb; omega; exact lb), ← htrim]
  refine ⟨_, rfl, rfl, ?_, ?_⟩
  · dsimp only; omega
  · exact (foldl_copyOne q.size (fun j => vok (pt j)) _ q.m (by rw [hpl.1]; exact range'_nodup _ _)
      (fun p hp => ⟨(hpl.2.2.2 p hp).1, (hpl.2.2.2 p hp).2.2⟩)).1

theorem mapM_forall₂ {γ δ : Type} (f : γ → Option δ) (P : γ → δ → Prop) (h : ∀ x, ∃ y, f x = some y ∧ P x y) :
    ∀ l : List γ, ∃ l', l.mapM f = some l' ∧ List.Forall₂ P l l' := by
  intro l
  induction l with
  | nil => exact ⟨[], rfl, List.Forall₂.nil⟩
  | cons a l ih =>
    obtain ⟨y, hy, py⟩ := h a
    obtain ⟨l', hl', pl⟩ := ih
    refine ⟨y :: l', ?_, List.Forall₂.cons py pl⟩
    rw [List.mapM_cons, hy, hl']; rfl

/-! ### C11 -/

/-- The new number of a point, as left in `tmp` by the marking. -/
def newIdx (M : Mesh α ν β K) (i : Nat) : Nat := ((mark M.pts.np M.pts.pt).2.2 i).tmp

theorem pack_full (zp : Pt α ν) (zt : β) {M : Mesh α ν β K} (h : Ready M) :
    ∃ M' nc τ π κ, packMesh zp zt M = some (M', nc) ∧
      PtsOK M.npmax M.pts M.xn (mark M.pts.np M.pts.pt) M'.pts (plan (fun j => vok (M.pts.pt j)) (M.pts.np + 1) 1 (M.pts.np + 1)) ∧
      Consistent M M' (newIdx M) τ π κ ∧
      nc = ((Finset.Icc 1 M.pts.np).filter fun i => vok (M.pts.pt i) = true ∧
        (M.pts.pt i).tag &&& CRN ≠ 0).card := by
  obtain ⟨ts, τ, t1, t2, t3, t4⟩ := packTets_spec zt M.hasAdja M.nemax h.adja h.last
  obtain ⟨π, hπ⟩ := packEls_spec M.prisms
  obtain ⟨κ, hκ⟩ := packEls_spec M.quads
  obtain ⟨ps, e1, e2⟩ := points_plan zp M.xn M.npmax h.point
  have hpl := plan_spec (fun j => vok (M.pts.pt j)) (M.pts.np + 1) 1 (M.pts.np + 1) (by omega)
  obtain ⟨ss, s1, s2⟩ := mapM_forall₂ (packSol M.pts.np M.pts.pt) _
    (fun q => packSol_plan (K := K) h.point q) M.sols
  generalize hL : plan (fun j => vok (M.pts.pt j)) (M.pts.np + 1) 1 (M.pts.np + 1) = L at *
  -- a used point is in the plan
  have hused : ∀ i, Used M.pts i → ∃ p ∈ L, p.2 = i := by
    rintro i ⟨u1, u2, u3⟩
    have := (hpl.2.1 i).2 ⟨u1, by omega, u3⟩
    obtain ⟨p, hp, h⟩ := List.mem_map.1 this
    exact ⟨p, hp, h⟩
  have hnew : ∀ p ∈ L, ((mark M.pts.np M.pts.pt).2.2 p.2).tmp = p.1 := by
    intro p hp
    rw [e2.mark p hp]; rfl
  have hfst : (L.map Prod.fst).Nodup := by rw [hpl.1]; exact range'_nodup _ _
  have hfst2 : ∀ p ∈ L, ∀ q ∈ L, p.1 = q.1 → p = q := fun p hp q hq h => List.inj_on_of_nodup_map hfst hp hq h
  have hrange : ∀ p ∈ L, 1 ≤ p.1 ∧ p.1 ≤ L.length := by
    intro p hp
    have : p.1 ∈ List.range' 1 L.length := by rw [← hpl.1]; exact List.mem_map_of_mem hp
    rw [List.mem_range'_1] at this; omega
  have hnewpos : ∀ i, Used M.pts i → 0 < ((mark M.pts.np M.pts.pt).2.2 i).tmp := by
    intro i hi
    obtain ⟨p, hp, rfl⟩ := hused i hi
    rw [hnew p hp]; exact (hrange p hp).1
  have bij : Set.BijOn (fun i => ((mark M.pts.np M.pts.pt).2.2 i).tmp) {i | Used M.pts i} (Set.Icc 1 ps.np) := by
    refine ⟨?_, ?_, ?_⟩
    · intro i hi
      obtain ⟨p, hp, rfl⟩ := hused i hi
      have := hrange p hp
      show ((mark M.pts.np M.pts.pt).2.2 p.2).tmp ∈ _
      rw [hnew p hp, e2.np]; exact ⟨this.1, this.2⟩
    · intro i hi j hj hij
      obtain ⟨p, hp, rfl⟩ := hused i hi
      obtain ⟨q, hq, rfl⟩ := hused j hj
      have hij : ((mark M.pts.np M.pts.pt).2.2 p.2).tmp = ((mark M.pts.np M.pts.pt).2.2 q.2).tmp := hij
      rw [hnew p hp, hnew q hq] at hij
      rw [hfst2 p hp q hq hij]
    · rintro d ⟨d1, d2⟩
      rw [e2.np] at d2
      have : d ∈ L.map Prod.fst := by rw [hpl.1, List.mem_range'_1]; omega
      obtain ⟨p, hp, rfl⟩ := List.mem_map.1 this
      have := (hpl.2.1 p.2).1 (List.mem_map_of_mem hp)
      exact ⟨p.2, ⟨this.1, by omega, this.2.2⟩, hnew p hp⟩
  have hpm : packMesh zp zt M = some ({ M with
      pts := ps
      tets := { ts with el := renumber 4 ts.ne (mark M.pts.np M.pts.pt).2.2 ts.el }
      prisms := { packEls M.prisms with
        el := renumber 6 (packEls M.prisms).n (mark M.pts.np M.pts.pt).2.2 (packEls M.prisms).el }
      quads := { packEls M.quads with
        el := renumber 4 (packEls M.quads).n (mark M.pts.np M.pts.pt).2.2 (packEls M.quads).el }
      sols := ss }, (mark M.pts.np M.pts.pt).2.1) := by
    unfold packMesh
    rw [t1]
    dsimp only
    rw [s1]
    dsimp only
    unfold packPoints
    dsimp only
    rw [e1]
  refine ⟨_, _, τ, π, κ, hpm, e2, ?_, ?_⟩
  · have ren : ∀ {nv : Nat} {s s' : Els β} {ρ : Nat → Nat}, RenumE ρ s s' → 1 ≤ nv →
        (∀ k, ValE s k → ∀ i < nv, Used M.pts ((s.el k).v i)) →
        Set.BijOn ρ {k | ValE s k} {k | ValE ⟨s'.n, renumber nv s'.n (mark M.pts.np M.pts.pt).2.2 s'.el⟩ k} ∧
        ∀ k, ValE s k → (renumber nv s'.n (mark M.pts.np M.pts.pt).2.2 s'.el (ρ k)).dat = (s.el k).dat ∧
          ∀ i < nv, (renumber nv s'.n (mark M.pts.np M.pts.pt).2.2 s'.el (ρ k)).v i =
            ((mark M.pts.np M.pts.pt).2.2 ((s.el k).v i)).tmp := by
      intro nv s s' ρ hr hnv hv
      have hel : ∀ k, ValE s k → (renumber nv s'.n (mark M.pts.np M.pts.pt).2.2 s'.el (ρ k)).dat = (s.el k).dat ∧
          ∀ i < nv, (renumber nv s'.n (mark M.pts.np M.pts.pt).2.2 s'.el (ρ k)).v i =
            ((mark M.pts.np M.pts.pt).2.2 ((s.el k).v i)).tmp := by
        intro k hk
        have hv' := hr.val k hk
        have := renumber_el (nv := nv) (pt := (mark M.pts.np M.pts.pt).2.2) hv'.1 hv'.2.1 hv'.2.2
        rwa [hr.el k hk] at this
      refine ⟨⟨?_, ?_, ?_⟩, hel⟩
      · intro k hk
        have hv' := hr.val k hk
        refine ⟨hv'.1, hv'.2.1, ?_⟩
        unfold eok
        rw [(hel k hk).2 0 (by omega)]
        exact decide_eq_true (hnewpos _ (hv k hk 0 (by omega)))
      · intro a ha c hc hac
        exact hr.inj a c ha hc hac
      · intro j hj
        obtain ⟨a, ha, h⟩ := hr.surj j ⟨hj.1, hj.2.1, renumber_eok hj.2.2 ⟨hj.1, hj.2.1⟩⟩
        exact ⟨a, ha, h⟩
    have hp := ren hπ (by omega) h.prisms
    have hq := ren hκ (by omega) h.quads
    refine ⟨bij, ?_, e2.above, ?_, ?_, ?_, ?_, hp.1, hp.2, hq.1, hq.2⟩
    · intro i hi
      obtain ⟨p, hp, rfl⟩ := hused i hi
      dsimp only [newIdx]
      rw [hnew p hp, e2.pt p hp]
      have key : ∀ q : Pt α ν, (q = stamp p.1 { M.pts.pt p.2 with tmp := 0 } ∨
          q = setNormal M.xn (stamp p.1 { M.pts.pt p.2 with tmp := 0 })) →
          q.dat = (M.pts.pt p.2).dat ∧ q.xp = (M.pts.pt p.2).xp ∧ q.ref = |(M.pts.pt p.2).ref| ∧
          q.tag = if (M.pts.pt p.2).tag &&& NOSURF ≠ 0 then (M.pts.pt p.2).tag &&& ~~~(NOSURF ||| REQ)
            else (M.pts.pt p.2).tag := by
        intro q hq
        have base : (stamp p.1 { M.pts.pt p.2 with tmp := 0 }).dat = (M.pts.pt p.2).dat ∧
            (stamp p.1 { M.pts.pt p.2 with tmp := 0 }).xp = (M.pts.pt p.2).xp ∧
            (stamp p.1 { M.pts.pt p.2 with tmp := 0 }).ref = |(M.pts.pt p.2).ref| ∧
            (stamp p.1 { M.pts.pt p.2 with tmp := 0 }).tag = if (M.pts.pt p.2).tag &&& NOSURF ≠ 0 then
              (M.pts.pt p.2).tag &&& ~~~(NOSURF ||| REQ) else (M.pts.pt p.2).tag := by
          refine ⟨rfl, rfl, ?_, ?_⟩
          · show ((M.pts.pt p.2).ref.natAbs : Int) = _
            exact Int.natCast_natAbs _
          · unfold stamp
            rw [clean_tag]
        rcases hq with rfl | rfl
        · exact base
        · obtain ⟨n1, n2, n3, n4⟩ := setNormal_frame M.xn (stamp p.1 { M.pts.pt p.2 with tmp := 0 })
          rw [n1, n2, n3, n4]; exact base
      refine key (if p.1 = ps.np ∧ p.1 = p.2 ∧ 1 < lastUsed (fun j => vok (M.pts.pt j)) M.pts.np then _ else _) ?_
      by_cases hc : p.1 = ps.np ∧ p.1 = p.2 ∧ 1 < lastUsed (fun j => vok (M.pts.pt j)) M.pts.np
      · rw [if_pos hc]; exact .inl rfl
      · rw [if_neg hc]; exact .inr rfl
    · refine List.Forall₂.imp ?_ s2
      rintro q q' ⟨h1, h2, h3⟩
      refine ⟨h1, by rw [h2, e2.np], ?_⟩
      intro i hi c hc
      obtain ⟨p, hp, rfl⟩ := hused i hi
      rw [newIdx, hnew p hp]
      exact h3 p hp c hc
    · refine ⟨fun k hk => ?_, fun a ha c hc hac => t2.inj a c ha hc hac, fun j hj => ?_⟩
      · have := t2.val k hk; exact ⟨this.1, this.2.1⟩
      · obtain ⟨a, ha, hj⟩ := t2.surj j (t4 j hj.1 hj.2)
        exact ⟨a, ha, hj⟩
    · intro k hk
      have hv' := t2.val k hk
      have := renumber_el (nv := 4) (pt := (mark M.pts.np M.pts.pt).2.2) hv'.1 hv'.2.1 hv'.2.2
      rwa [t2.el k hk] at this
    · intro hb k hk i hi
      exact t2.adja hb k hk i hi
  · rw [e2.corners]
    have hperm : L.countP (fun p => has (M.pts.pt p.2).tag CRN) =
        (L.map Prod.snd).countP (fun i => has (M.pts.pt i).tag CRN) := by rw [List.countP_map]; rfl
    rw [hperm, List.countP_eq_length_filter, ← List.toFinset_card_of_nodup (hpl.2.2.1.filter _)]
    congr 1
    ext i
    simp only [List.mem_toFinset, List.mem_filter, hpl.2.1, Finset.mem_filter, Finset.mem_Icc, has, decide_eq_true_eq]
    constructor
    · rintro ⟨⟨a, b, c⟩, d⟩; exact ⟨⟨a, by omega⟩, c, d⟩
    · rintro ⟨⟨a, b⟩, c, d⟩; exact ⟨⟨a, by omega, c⟩, d⟩

/-- **C11.** Packing a mesh succeeds and is a consistent renumbering; it returns the number of used corners. -/
theorem C11_pack_consistent (zp : Pt α ν) (zt : β) {M : Mesh α ν β K} (h : Ready M) :
    ∃ M' nc new τ π κ, packMesh zp zt M = some (M', nc) ∧ Consistent M M' new τ π κ ∧
      nc = ((Finset.Icc 1 M.pts.np).filter fun i => vok (M.pts.pt i) = true ∧
        (M.pts.pt i).tag &&& CRN ≠ 0).card := by
  obtain ⟨M', nc, τ, π, κ, h1, _, h2, h3⟩ := pack_full zp zt h
  exact ⟨M', nc, newIdx M, τ, π, κ, h1, h2, h3⟩

/-- Without used point the routine reads `point[-1]`. -/
theorem C11_no_used_point (zp : Pt α ν) (zt : β) {M : Mesh α ν β K}
    (h : ∀ i, 1 ≤ i → i ≤ M.pts.np → vok (M.pts.pt i) = false) (hs : M.sols ≠ []) : packMesh zp zt M = none := by
  unfold packMesh
  cases packTets zt M.hasAdja M.nemax M.tets with
  | none => rfl
  | some ts =>
    dsimp only
    obtain ⟨q, l, hl⟩ := List.exists_cons_of_ne_nil hs
    have : packSol M.pts.np M.pts.pt q = none := by
      unfold packSol
      dsimp only
      rw [if_pos]
      obtain ⟨la, lb, lc⟩ := lastUsed_spec (fun j => vok (M.pts.pt j)) M.pts.np
      by_contra hc
      rcases lb with lb | lb
      · exact hc lb
      · rw [h _ (by omega) la] at lb; simp at lb
    rw [hl, List.mapM_cons, this]; rfl

end Mmg.Pack3
