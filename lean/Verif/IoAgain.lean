/-
  C73: a loaded mesh saved and loaded again; witnesses.
-/
import Verif.IoMain

namespace Mmg.Io

variable {R : Type}

section Again

variable {bin : Bool} {pr : R → R} {zero : R} {neg : List (R × R × R) → Bool}
  {nz : R × R × R → R × R × R} {iso : Bool} {m : Mesh R}

/-- No isolated vertex: each used vertex is required or in a tetrahedron or in a prism. -/
def NoIsolated (m : Mesh R) : Prop :=
  ∀ k p, 1 ≤ k → m.pts[k - 1]? = some p → p.ok = true →
    (p.req || inTet m k || inPrism m k) = true

theorem all_ok (hi : NoIsolated m) :
    ∀ p ∈ (stored bin pr zero neg nz iso m).pts, p.ok = true := by
  intro p hp
  obtain ⟨i, hi'⟩ := List.mem_iff_getElem?.1 hp
  obtain ⟨k, q, h1, h2, h3, -, rfl⟩ := (C73_numbers bin pr zero neg nz iso m).2.2 i p hi'
  have := hi k q h1 h2 h3
  simp only [Pt.ok, ptOut, this, Bool.not_true, Bool.not_false]

theorem num_self (hi : NoIsolated m) (k : Nat) (hk : k ≤ (stored bin pr zero neg nz iso m).pts.length) :
    num (stored bin pr zero neg nz iso m) k = k := by
  unfold num
  rw [List.countP_eq_length.2 fun p hp => all_ok hi p (List.mem_of_mem_take hp), List.length_take]
  omega

/-- Elements of the loaded mesh are in order. -/
theorem eltOK_stored (hi : NoIsolated m) (a : Nat) (e : Elt) (he : EltOK m a e) (o : Elt)
    (ho : ∀ k, k ∈ o.v → k ∈ e.v.map (num m)) (hl : o.v.length = a) :
    EltOK (stored bin pr zero neg nz iso m) a o := by
  refine ⟨hl, ?_⟩
  intro k' hk'
  obtain ⟨k, hk, rfl⟩ := List.mem_map.1 (ho k' hk')
  obtain ⟨h1, p, hp, hok⟩ := he.2 k hk
  obtain ⟨h2, h3⟩ := (C73_numbers bin pr zero neg nz iso m).1 k p h1 hp hok
  exact ⟨h2, _, h3, all_ok hi _ (List.mem_of_getElem? h3)⟩

theorem le_length {a : Nat} {o : Elt} (he : EltOK m a o) : ∀ k ∈ o.v, k ≤ m.pts.length := by
  intro k hk
  obtain ⟨h1, p, hp, -⟩ := he.2 k hk
  obtain ⟨hlt, -⟩ := List.getElem?_eq_some_iff.1 hp
  omega

theorem eltOut_self (hi : NoIsolated m) (a : Nat) (o : Elt)
    (he : EltOK (stored bin pr zero neg nz iso m) a o) (hr : 0 ≤ o.ref) :
    eltOut (stored bin pr zero neg nz iso m) o = { o with req := false, par := false, geo := false } := by
  unfold eltOut
  have h1 : o.v.map (num (stored bin pr zero neg nz iso m)) = o.v := by
    conv_rhs => rw [← List.map_id o.v]
    apply List.map_congr_left
    intro k hk
    exact num_self hi k (le_length he k hk)
  have h2 : (o.ref.natAbs : Int) = o.ref := by omega
  rw [h1, h2]

theorem turned_v (e o : Elt) (hl : o.v.length = 4) :
    (∀ k, k ∈ (turned neg pr m e o).v ↔ k ∈ o.v) ∧ (turned neg pr m e o).v.length = 4 := by
  unfold turned
  split_ifs
  · match hv : o.v, hl with
    | [a, b, c, d], _ =>
      refine ⟨fun k => ?_, rfl⟩
      simp
      tauto
  · exact ⟨fun _ => Iff.rfl, hl⟩

theorem eltOut_ok {a : Nat} {e : Elt} (ha : 0 < a) (he : EltOK m a e) : (eltOut m e).ok = true := by
  unfold Elt.ok eltOut
  cases hv : e.v with
  | nil =>
    have := he.1
    rw [hv] at this
    simp at this
    omega
  | cons k l =>
    obtain ⟨h1, p, hp, hok⟩ := he.2 k (by rw [hv]; exact List.mem_cons_self ..)
    obtain ⟨-, h2⟩ := kept_get m k p h1 hp hok
    simp only [List.map_cons, List.getD_cons_zero, decide_eq_true_eq]
    omega

theorem turned_ok {e : Elt} (he : EltOK m 4 e) : (turned neg pr m e (eltOut m e)).ok = true := by
  have h0 := eltOut_ok (by omega) he
  unfold turned
  split_ifs
  · have hl : (eltOut m e).v.length = 4 := by simpa [eltOut] using he.1
    revert h0
    unfold Elt.ok
    match hv : (eltOut m e).v, hl with
    | [a, b, c, d], _ => exact id
  · exact h0

theorem coords_stored (hpr : ∀ x, pr (pr x) = pr x) (vs : List Nat)
    (hv : ∀ k ∈ vs, 1 ≤ k ∧ ∃ p, m.pts[k - 1]? = some p ∧ p.ok = true) :
    ((vs.map (num m)).filterMap fun k =>
      ((stored bin pr zero neg nz iso m).pts[k - 1]?).map fun p => pr3 pr p.c) =
    vs.filterMap fun k => (m.pts[k - 1]?).map fun p => pr3 pr p.c := by
  rw [List.filterMap_map]
  apply List.filterMap_congr
  intro k hk
  obtain ⟨h1, p, hp, hok⟩ := hv k hk
  obtain ⟨h2, h3⟩ := (C73_numbers bin pr zero neg nz iso m).1 k p h1 hp hok
  simp only [Function.comp, h3, hp, Option.map_some, ptOut, pr3, hpr]

theorem neg_stored (hpr : ∀ x, pr (pr x) = pr x)
    (hneg : ∀ a b c d, neg [a, b, c, d] = true → neg [a, b, d, c] = false) (e : Elt)
    (he : EltOK m 4 e) :
    neg ((turned neg pr m e (eltOut m e)).v.filterMap fun k =>
      ((stored bin pr zero neg nz iso m).pts[k - 1]?).map fun p => pr3 pr p.c) = false := by
  unfold turned
  split_ifs with hc
  · obtain ⟨hl, hv⟩ := he
    match hev : e.v, hl with
    | [a, b, c, d], _ =>
      rw [hev] at hc hv
      have e1 : (eltOut m e).v = [num m a, num m b, num m c, num m d] := by simp [eltOut, hev]
      have e2 : (List.take 2 (eltOut m e).v ++ [(eltOut m e).v.getD 3 0, (eltOut m e).v.getD 2 0])
          = [a, b, d, c].map (num m) := by rw [e1]; rfl
      simp only
      rw [e2, coords_stored hpr _ (by
        intro k hk
        apply hv
        simp only [List.mem_cons, List.not_mem_nil, or_false] at hk ⊢
        tauto)]
      obtain ⟨-, pa, ha, -⟩ := hv a (by simp)
      obtain ⟨-, pb, hb, -⟩ := hv b (by simp)
      obtain ⟨-, pc, hc', -⟩ := hv c (by simp)
      obtain ⟨-, pd, hd, -⟩ := hv d (by simp)
      simp only [List.filterMap_cons, ha, hb, hc', hd, Option.map_some, List.filterMap_nil] at hc ⊢
      exact hneg _ _ _ _ hc
  · have : (eltOut m e).v = e.v.map (num m) := rfl
    rw [this, coords_stored hpr _ he.2]
    simpa using hc

theorem filter_all {α : Type} (p : α → Bool) (l : List α) (h : ∀ x ∈ l, p x = true) : l.filter p = l :=
  List.filter_eq_self.2 h

/-- The vertices of the tetrahedra of the mesh are vertices of tetrahedra of the loaded mesh. -/
theorem inTet_stored (hv : Valid m) (k : Nat) (hk : inTet m k = true) :
    inTet (stored bin pr zero neg nz iso m) (num m k) = true := by
  simp only [inTet, List.any_eq_true, Bool.and_eq_true, List.contains_iff_mem] at hk ⊢
  obtain ⟨e, he, ho, hke⟩ := hk
  have hE := hv.tets e he ho
  refine ⟨_, List.mem_map.2 ⟨e, List.mem_filter.2 ⟨he, ho⟩, rfl⟩, turned_ok (neg := neg) (pr := pr) hE, ?_⟩
  have hl : (eltOut m e).v.length = 4 := by simpa [eltOut] using hE.1
  exact ((turned_v e (eltOut m e) hl).1 _).2 (List.mem_map.2 ⟨k, hke, rfl⟩)

theorem inPrism_stored (hv : Valid m) (k : Nat) (hk : inPrism m k = true) :
    inPrism (stored bin pr zero neg nz iso m) (num m k) = true := by
  simp only [inPrism, List.any_eq_true, Bool.and_eq_true, List.contains_iff_mem] at hk ⊢
  obtain ⟨e, he, ho, hke⟩ := hk
  have hE := hv.prisms e he ho
  exact ⟨_, List.mem_map.2 ⟨e, List.mem_filter.2 ⟨he, ho⟩, rfl⟩, eltOut_ok (by omega) hE,
    List.mem_map.2 ⟨k, hke, rfl⟩⟩

theorem stored_valid (hv : Valid m) (hi : NoIsolated m) : Valid (stored bin pr zero neg nz iso m) := by
  refine ⟨⟨?_, ?_, ?_, ?_, ?_⟩, ?_⟩
  · intro o ho _
    obtain ⟨e, he, rfl⟩ := List.mem_map.1 ho
    obtain ⟨he1, he2⟩ := List.mem_filter.1 he
    have hE := hv.tets e he1 he2
    have hl : (eltOut m e).v.length = 4 := by simpa [eltOut] using hE.1
    have ht := turned_v (neg := neg) (pr := pr) (m := m) e (eltOut m e) hl
    exact eltOK_stored hi 4 e hE _ (fun k hk => (ht.1 k).1 hk) ht.2
  · intro o ho _
    obtain ⟨e, he, rfl⟩ := List.mem_map.1 ho
    obtain ⟨he1, he2⟩ := List.mem_filter.1 he
    have hE := hv.prisms e he1 he2
    exact eltOK_stored hi 6 e hE _ (fun k hk => hk) (by simpa [eltOut] using hE.1)
  · intro o ho
    obtain ⟨e, he, rfl⟩ := List.mem_map.1 ho
    exact eltOK_stored hi 3 e (hv.tris e he) _ (fun k hk => hk)
      (by simpa [eltOut] using (hv.tris e he).1)
  · intro o ho
    obtain ⟨e, he, rfl⟩ := List.mem_map.1 ho
    exact ⟨eltOut_ok (a := 4) (by omega) (hv.quads e he).2, eltOK_stored hi 4 e (hv.quads e he).2 _
      (fun k hk => hk) (by simpa [eltOut] using (hv.quads e he).2.1)⟩
  · intro o ho
    obtain ⟨e, he, rfl⟩ := List.mem_map.1 ho
    exact eltOK_stored hi 2 e (hv.edges e he) _ (fun k hk => hk)
      (by simpa [eltOut] using (hv.edges e he).1)
  · obtain ⟨e, he, ho⟩ := hv.one
    exact ⟨_, List.mem_map.2 ⟨e, List.mem_filter.2 ⟨he, ho⟩, rfl⟩,
      turned_ok (neg := neg) (pr := pr) (hv.tets e he ho)⟩

theorem map_self {α : Type} (f : α → α) (l : List α) (h : ∀ x ∈ l, f x = x) : l.map f = l := by
  conv_rhs => rw [← List.map_id l]
  exact List.map_congr_left h

theorem stored_stored (hv : Valid m) (hi : NoIsolated m) (hpr : ∀ x, pr (pr x) = pr x)
    (hneg : ∀ a b c d, neg [a, b, c, d] = true → neg [a, b, d, c] = false)
    (hx : m.xp = false ∨ iso = true) :
    stored bin pr zero neg nz iso (stored bin pr zero neg nz iso m) =
      stored bin pr zero neg nz iso m := by
  have hv' : Valid (stored bin pr zero neg nz iso m) := stored_valid hv hi
  set m' := stored bin pr zero neg nz iso m with hm'
  have hself : ∀ a o, EltOK m' a o → 0 ≤ o.ref →
      eltOut m' o = { o with req := false, par := false, geo := false } :=
    fun a o h1 h2 => eltOut_self hi a o h1 h2
  have hpts : (kept m').map (ptOut bin pr zero nz iso m') = m'.pts := by
    apply List.ext_getElem?
    intro i
    rw [List.getElem?_map]
    cases hp : m'.pts[i]? with
    | none =>
      have : (kept m')[i]? = none := by
        rw [List.getElem?_eq_none_iff] at hp ⊢
        have : (kept m').length ≤ (m'.pts.zipIdx 1).length := List.length_filter_le ..
        rw [List.length_zipIdx] at this
        omega
      rw [this]
      rfl
    | some p =>
      obtain ⟨hlt, -⟩ := List.getElem?_eq_some_iff.1 hp
      have hok : p.ok = true := all_ok hi p (List.mem_of_getElem? hp)
      have hg := (kept_get m' (i + 1) p (by omega) (by simpa using hp) hok).1
      have hns : num m' (i + 1) = i + 1 := num_self hi (i + 1) (show i + 1 ≤ m'.pts.length by omega)
      rw [hns, Nat.add_sub_cancel] at hg
      rw [hg, Option.map_some]
      congr 1
      obtain ⟨k, q, h1, h2, h3, h4, h5⟩ := (C73_numbers bin pr zero neg nz iso m).2.2 i p hp
      have hused : (p.req || inTet m' (i + 1) || inPrism m' (i + 1)) = true := by
        have h6 := hi k q h1 h2 h3
        have hreq : p.req = q.req := by rw [h5]; rfl
        rw [hreq, ← h4]
        simp only [Bool.or_eq_true] at h6 ⊢
        rcases h6 with (h6 | h6) | h6
        · exact .inl (.inl h6)
        · exact .inl (.inr (inTet_stored hv k h6))
        · exact .inr (inPrism_stored hv k h6)
      have hn : normal m' (p, i + 1) = false := by simp [normal, hm', stored]
      have hnul : p.nul = false := by simpa [Pt.ok] using hok
      have hcc : pr3 pr p.c = p.c := by rw [h5]; simp [ptOut, pr3, hpr]
      have hni : (normal m (q, k) && !iso) = false := by
        rcases hx with hx | hx <;> simp [normal, hx]
      have hrr : (p.ref.natAbs : Int) = p.ref := by rw [h5]; simp [ptOut]
      have hpar : (!bin && p.par) = p.par := by rw [h5]; simp [ptOut]
      unfold ptOut
      simp only [hused, hn, Bool.not_true, Bool.false_and, hcc, hrr, hpar]
      rw [h5] at hnul ⊢
      simp only [ptOut, hni] at hnul ⊢
      simp [hnul]
  have htets : ((m'.tets.filter fun e => e.ok).map fun e =>
      { turned neg pr m' e (eltOut m' e) with req := e.req, par := !bin && e.par }) = m'.tets := by
    rw [filter_all]
    · apply map_self
      intro o ho
      obtain ⟨e, he, rfl⟩ := List.mem_map.1 ho
      obtain ⟨he1, he2⟩ := List.mem_filter.1 he
      have hE := hv.tets e he1 he2
      have hno := neg_stored (bin := bin) (zero := zero) (nz := nz) (iso := iso) hpr hneg e hE
      have hok := hv'.tets _ ho (turned_ok (neg := neg) (pr := pr) hE)
      rw [hself 4 _ hok (by
        have : (turned neg pr m e (eltOut m e)).ref = e.ref.natAbs := by unfold turned; split_ifs <;> rfl
        simp only [this]; omega)]
      have hg : (turned neg pr m e (eltOut m e)).geo = false := by unfold turned; split_ifs <;> rfl
      have hto : ∀ X, turned neg pr m' { turned neg pr m e (eltOut m e) with
          req := e.req, par := !bin && e.par } X = X := by
        intro X
        conv_lhs => unfold turned
        rw [if_neg]
        exact ne_true_of_eq_false hno
      rw [hto]
      simp only [hg, ← Bool.and_assoc, Bool.and_self]
    · intro o ho
      obtain ⟨e, he, rfl⟩ := List.mem_map.1 ho
      obtain ⟨he1, he2⟩ := List.mem_filter.1 he
      exact turned_ok (neg := neg) (pr := pr) (hv.tets e he1 he2)
  have hprisms : ((m'.prisms.filter fun e => e.ok).map (eltOut m')) = m'.prisms := by
    have hok : ∀ o ∈ m'.prisms, o.ok = true := by
      intro o ho
      obtain ⟨e, he, rfl⟩ := List.mem_map.1 ho
      obtain ⟨he1, he2⟩ := List.mem_filter.1 he
      exact eltOut_ok (by omega) (hv.prisms e he1 he2)
    rw [filter_all _ _ hok]
    apply map_self
    intro o ho
    have hE := hv'.prisms o ho (hok o ho)
    obtain ⟨e, he, rfl⟩ := List.mem_map.1 ho
    rw [hself 6 _ hE (by simp [eltOut])]
    rfl
  have htris : (m'.tris.map fun e => { eltOut m' e with req := e.req, par := !bin && e.par })
      = m'.tris := by
    apply map_self
    intro o ho
    have hE := hv'.tris o ho
    obtain ⟨e, he, rfl⟩ := List.mem_map.1 ho
    rw [hself 3 _ hE (by simp [eltOut])]
    simp [eltOut]
  have hquads : (m'.quads.map fun e => { eltOut m' e with req := e.req, par := !bin && e.par })
      = m'.quads := by
    apply map_self
    intro o ho
    have hE := (hv'.quads o ho).2
    obtain ⟨e, he, rfl⟩ := List.mem_map.1 ho
    rw [hself 4 _ hE (by simp [eltOut])]
    simp [eltOut]
  have hedges : (m'.edges.map fun e =>
      { eltOut m' e with req := e.req, par := !bin && e.par, geo := e.geo }) = m'.edges := by
    apply map_self
    intro o ho
    have hE := hv'.edges o ho
    obtain ⟨e, he, rfl⟩ := List.mem_map.1 ho
    rw [hself 2 _ hE (by simp [eltOut])]
    simp [eltOut]
  have hs : stored bin pr zero neg nz iso m' = { m' with xp := false } := by
    unfold stored
    rw [hpts, htets, hprisms, htris, hquads, hedges]
  rw [hs, hm']
  rfl

end Again

/-- **Saving and loading again changes nothing**: without isolated vertices, the loaded mesh is
found again after any further saving and loading (ASCII). -/
theorem C73_again_ascii (pr fl : R → R) (zero : R) (neg : List (R × R × R) → Bool)
    (nz : R × R × R → R × R × R) (iso : Bool) (m : Mesh R) (hv : Valid m) (hi : NoIsolated m)
    (hpr : ∀ x, pr (pr x) = pr x)
    (hneg : ∀ a b c d, neg [a, b, c, d] = true → neg [a, b, d, c] = false)
    (hx : m.xp = false ∨ iso = true) (old old' : Kw → Int) (ver ver' : Int)
    (h0 : ∀ k, k ≠ .vert → k ≠ .tet → old k = 0) (h0' : ∀ k, k ≠ .vert → k ≠ .tet → old' k = 0) :
    ∃ m', loadA fl zero neg nz iso old ver (saveA pr m) = some m' ∧
      loadA fl zero neg nz iso old' ver' (saveA pr m') = some m' := by
  refine ⟨_, C73_ascii pr fl zero neg nz iso m hv old ver h0, ?_⟩
  rw [C73_ascii pr fl zero neg nz iso _ (stored_valid hv hi) old' ver' h0',
    stored_stored hv hi hpr hneg hx]

/-- The same for binary files. -/
theorem C73_again_binary (fl : R → R) (zero : R) (neg : List (R × R × R) → Bool)
    (nz : R × R × R → R × R × R) (iso : Bool) (m : Mesh R) (hv : Valid m) (hi : NoIsolated m)
    (hneg : ∀ a b c d, neg [a, b, c, d] = true → neg [a, b, d, c] = false)
    (hx : m.xp = false ∨ iso = true) :
    ∃ m', loadB fl zero neg nz iso (fun _ => 0) (saveB m) = some m' ∧
      loadB fl zero neg nz iso (fun _ => 0) (saveB m') = some m' := by
  refine ⟨_, C73_binary fl zero neg nz iso m hv _ fun _ => rfl, ?_⟩
  rw [C73_binary fl zero neg nz iso _ (stored_valid hv hi) _ fun _ => rfl,
    stored_stored (pr := id) hv hi (fun _ => rfl) hneg hx]

namespace Ex

/-- A vertex. -/
def pt (x y z ref : Int) : Pt Int :=
  { c := (x, y, z), ref := ref, nul := false, crn := false, req := false, par := false, bdy := false,
    geo := false, rf := false, nom := false, flag := false, n1 := (0, 0, 1), n := (1, 0, 0) }

def el (v : List Nat) (ref : Int) : Elt := { v := v, ref := ref, req := false, par := false, geo := false }

/-- Two tetrahedra on five vertices; the vertices 2 and 7 and the first tetrahedron are unused, the
vertex 8 is an isolated corner. -/
def m0 : Mesh Int :=
  { pts := [{ pt 0 0 0 1 with crn := true }, { pt 9 9 9 0 with nul := true }, pt 1 0 0 2,
      { pt 0 1 0 (-3) with req := true }, pt 0 0 1 4, { pt 1 1 1 5 with par := true },
      { pt 8 8 8 0 with nul := true }, { pt 5 5 5 6 with crn := true }]
    tets := [el [0, 0, 0, 0] 0, el [1, 3, 4, 5] 7, { el [3, 4, 6, 5] (-8) with req := true }]
    prisms := []
    tris := [{ el [1, 3, 4] 1 with req := true, par := true }, el [1, 3, 5] 2]
    quads := []
    edges := [{ el [1, 3] 1 with geo := true }, { el [3, 4] 2 with req := true }]
    xp := false }

theorem m0_valid : Valid m0 := by
  refine ⟨⟨?_, ?_, ?_, ?_, ?_⟩, ⟨el [1, 3, 4, 5] 7, by simp [m0], rfl⟩⟩
  all_goals simp [m0, el, EltOK, Elt.ok, Pt.ok, pt]

/-- Orientation by the sign of the volume. -/
def neg (l : List (Int × Int × Int)) : Bool :=
  match l with
  | [a, b, c, d] =>
    decide ((b.1 - a.1) * ((c.2.1 - a.2.1) * (d.2.2 - a.2.2) - (c.2.2 - a.2.2) * (d.2.1 - a.2.1))
      - (b.2.1 - a.2.1) * ((c.1 - a.1) * (d.2.2 - a.2.2) - (c.2.2 - a.2.2) * (d.1 - a.1))
      + (b.2.2 - a.2.2) * ((c.1 - a.1) * (d.2.1 - a.2.1) - (c.2.1 - a.2.1) * (d.1 - a.1)) < 0)
  | _ => false

def ldA (f : List (Tok Int)) : Option (Mesh Int) := loadA id 0 neg id false (fun _ => 0) 0 f

def ldB (f : List (Tok Int)) : Option (Mesh Int) := loadB id 0 neg id false (fun _ => 0) f

example : ldA (saveA id m0) = some (stored false id 0 neg id false m0) :=
  C73_ascii id id 0 neg id false m0 m0_valid _ 0 fun _ _ _ => rfl

example : ldB (saveB m0) = some (stored true id 0 neg id false m0) :=
  C73_binary id 0 neg id false m0 m0_valid _ fun _ => rfl

example : (ldA (saveA id m0)).map (fun m => (m.tets.map fun e => (e.v, e.ref, e.req)))
    = some [([1, 2, 3, 4], 7, false), ([2, 3, 4, 5], 8, true)] := by decide +kernel

example : (ldA (saveA id m0)).map (fun m => (m.pts.map fun p => ((p.c.1, p.ref), p.crn, p.req, p.par, p.nul)))
    = some [((0, 1), true, false, false, false), ((1, 2), false, false, false, false),
      ((0, 3), false, true, false, false), ((0, 4), false, false, false, false),
      ((1, 5), false, false, true, false), ((5, 6), true, false, false, true)] := by decide +kernel

example : (stored false id 0 neg id false m0).pts[num m0 6 - 1]? =
    some (ptOut false id 0 id false m0 ({ pt 1 1 1 5 with par := true }, 6)) :=
  ((C73_numbers false id 0 neg id false m0).1 6 _ (by decide) rfl rfl).2

example : num m0 6 = 5 := by decide

/-- Parallel entities are lost in binary files. -/
theorem C73_parallel_observed :
    (ldA (saveA id m0)).map (fun m => m.pts.map fun p => p.par)
      = some [false, false, false, false, true, false] ∧
    (ldB (saveB m0)).map (fun m => m.pts.map fun p => p.par)
      = some [false, false, false, false, false, false] := by
  constructor <;> decide +kernel

/-- An isolated corner is loaded as an unused vertex, it disappears at the next saving. -/
theorem C73_isolated_observed :
    (ldA (saveA id m0)).map (fun m => m.pts.length) = some 6 ∧
    ((ldA (saveA id m0)).bind fun m => (ldA (saveA id m)).map fun m => m.pts.length) = some 5 := by
  constructor <;> decide +kernel

/-- The same mesh without the isolated corner. -/
def m1 : Mesh Int := { m0 with pts := m0.pts.take 7 }

theorem m1_valid : Valid m1 := by
  refine ⟨⟨?_, ?_, ?_, ?_, ?_⟩, ⟨el [1, 3, 4, 5] 7, by simp [m1, m0], rfl⟩⟩
  all_goals simp [m1, m0, el, EltOK, Elt.ok, Pt.ok, pt]

theorem m1_noIsolated : NoIsolated m1 := by
  intro k p h1 hp ho
  have hk : k ≤ 7 := by
    obtain ⟨hlt, -⟩ := List.getElem?_eq_some_iff.1 hp
    have : m1.pts.length = 7 := rfl
    omega
  have key : ∀ k ∈ [1, 2, 3, 4, 5, 6, 7], ∀ p ∈ m1.pts[k - 1]?, p.ok = true →
      (p.req || inTet m1 k || inPrism m1 k) = true := by decide
  exact key k (by interval_cases k <;> simp) p hp ho

theorem neg_turn (a b c d : Int × Int × Int) (h : neg [a, b, c, d] = true) : neg [a, b, d, c] = false := by
  simp only [neg, decide_eq_true_eq, decide_eq_false_iff_not] at h ⊢
  linarith

example : ∃ m', ldA (saveA id m1) = some m' ∧ ldA (saveA id m') = some m' :=
  C73_again_ascii id id 0 neg id false m1 m1_valid m1_noIsolated (fun _ => rfl) neg_turn (.inl rfl)
    _ _ 0 0 (fun _ _ _ => rfl) (fun _ _ _ => rfl)

example : ∃ m', ldB (saveB m1) = some m' ∧ ldB (saveB m') = some m' :=
  C73_again_binary id 0 neg id false m1 m1_valid m1_noIsolated neg_turn (.inl rfl)

/-- The mesh without triangles is refused by a mesh that had one triangle. -/
example : loadA id 0 neg id false (fun k => if k = .tria then 1 else 0) 0
    (saveA id { m0 with tris := [] }) = none :=
  C73_stale id id 0 neg id false { m0 with tris := [] }
    ⟨m0_valid.tets, m0_valid.prisms, by simp, m0_valid.quads, m0_valid.edges⟩ rfl (fun k => if k = .tria then 1 else 0) 0 (by decide)

example : loadA id 0 neg id false (fun _ => 0) 0 (saveA id { m0 with tets := [] }) = none :=
  C73_no_tetra id id 0 neg id false { m0 with tets := [] }
    ⟨by simp, m0_valid.prisms, m0_valid.tris, m0_valid.quads, m0_valid.edges⟩ (by simp) (fun _ => 0) 0
    fun _ _ _ => rfl

/-- A required quadrilateral behind an unused one: its number in the file is the one before packing;
the loaded quadrilateral is not required. -/
theorem C73_quad_observed :
    (ldA (saveA id { m0 with quads := [el [0, 0, 0, 0] 0, { el [1, 3, 4, 5] 1 with req := true }] })).map
      (fun m => m.quads.map fun e => (e.v, e.req)) = some [([1, 2, 3, 4], false)] := by
  decide +kernel

/-- Three vertices with a tangent, no normal. -/
def m2 : Mesh Int :=
  { m1 with pts := m1.pts.map fun p => { p with bdy := true, geo := true }, xp := true }

/-- In a binary file all the vertices with a tangent get the same rank, the number of normals. -/
theorem C73_tangent_observed :
    ((parts false id m2)[11]?).map (fun q => (q.1, q.2.data))
      = some (true, [.int 2, .int 1, .int 4, .int 2, .int 5, .int 3]) ∧
    ((parts true id m2)[11]?).map (fun q => (q.1, q.2.data))
      = some (true, [.int 2, .int 0, .int 4, .int 0, .int 5, .int 0]) := by
  constructor <;> decide +kernel

/-- In a mesh that had vertices, the vertices of a binary file are looked for at its beginning. -/
theorem C73_binary_stale_observed :
    ((scanB (saveB m0) ((saveB m0).length + 1) ((saveB m0).drop 2) 0
      (initHdr (saveB m0) (fun k => if k = .vert then 9 else 0) 2)).map
      fun h => (h.cnt .vert, decide (h.pos .vert = saveB m0))) = some (9, true) := by
  decide +kernel

end Ex

end Mmg.Io
