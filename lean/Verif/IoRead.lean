/-
  The second pass of the reading (`IoModel.readMesh`) on the files written by `IoModel.saveA`
  and `IoModel.saveB`.
-/
import Verif.Io

namespace Mmg.Io

variable {R : Type}

/-- What the first pass finds in a saved file. -/
structure Found (bin : Bool) (pr : R → R) (m : Mesh R) (h : Hdr R) : Prop where
  ver : h.ver = 2
  vert : SecAt h .vert (kept m).length
    ((kept m).flatMap fun q => reals pr q.1.c ++ [.int q.1.ref.natAbs])
  corn : SecAt h .corn ((kept m).countP fun q => q.1.crn)
    (ints (markIdx (fun q => q.1.crn) (kept m) 0))
  reqV : SecAt h .reqV ((kept m).countP fun q => q.1.req)
    (ints (markIdx (fun q => q.1.req) (kept m) 0))
  parV : SecAt h .parV ((kept m).countP fun q => !bin && q.1.par)
    (ints (markIdx (fun q => !bin && q.1.par) (kept m) 0))
  tet : SecAt h .tet (m.tets.filter fun e => e.ok).length
    ((m.tets.filter fun e => e.ok).flatMap (row m))
  reqTet : SecAt h .reqTet ((m.tets.filter fun e => e.ok).countP fun e => e.req)
    (ints (markIdx (fun e => e.req) (m.tets.filter fun e => e.ok) 0))
  parTet : SecAt h .parTet ((m.tets.filter fun e => e.ok).countP fun e => !bin && e.par)
    (ints (markIdx (fun e => !bin && e.par) (m.tets.filter fun e => e.ok) 0))
  prism : SecAt h .prism (m.prisms.filter fun e => e.ok).length
    ((m.prisms.filter fun e => e.ok).flatMap (row m))
  norm : SecAt h .norm ((kept m).countP (normal m))
    (((kept m).filter (normal m)).flatMap fun q => reals pr q.1.n1)
  normAt : SecAt h .normAt ((kept m).countP (normal m))
    (pairs id (ints (markIdx (normal m) (kept m) 0)) 0)
  tria : SecAt h .tria m.tris.length (m.tris.flatMap (row m))
  reqTria : SecAt h .reqTria (m.tris.countP fun e => e.req)
    (ints (markIdx (fun e => e.req) m.tris 0))
  parTria : SecAt h .parTria (m.tris.countP fun e => !bin && e.par)
    (ints (markIdx (fun e => !bin && e.par) m.tris 0))
  quad : SecAt h .quad m.quads.length (m.quads.flatMap (row m))
  reqQuad : SecAt h .reqQuad (m.quads.countP fun e => e.req)
    (ints (markIdx (fun e => e.req) m.quads 0))
  parQuad : SecAt h .parQuad (m.quads.countP fun e => !bin && e.par)
    (ints (markIdx (fun e => !bin && e.par) m.quads 0))
  edge : SecAt h .edge m.edges.length (m.edges.flatMap (row m))
  ridge : SecAt h .ridge (m.edges.countP fun e => e.geo)
    (ints (markIdx (fun e => e.geo) m.edges 0))
  reqEdge : SecAt h .reqEdge (m.edges.countP fun e => e.req)
    (ints (markIdx (fun e => e.req) m.edges 0))
  parEdge : SecAt h .parEdge (m.edges.countP fun e => !bin && e.par)
    (ints (markIdx (fun e => !bin && e.par) m.edges 0))

/-- A vertex as it is read. -/
def rawPt (pr : R → R) (zero : R) (q : Pt R × Nat) : Pt R :=
  { c := pr3 pr q.1.c, ref := q.1.ref.natAbs, nul := true, crn := false, req := false, par := false,
    bdy := false, geo := false, rf := false, nom := false, flag := false,
    n1 := (zero, zero, zero), n := (zero, zero, zero) }

theorem readPart_spec (bin : Bool) (m : Mesh R) (a : Nat) (l : List Elt) (h : Hdr R)
    (k kreq kpar : Kw) (he : ∀ e ∈ l, EltOK m a e) (hs : SecAt h k l.length (l.flatMap (row m)))
    (hr : SecAt h kreq (l.countP fun e => e.req) (ints (markIdx (fun e => e.req) l 0)))
    (hp : SecAt h kpar (l.countP fun e => !bin && e.par)
      (ints (markIdx (fun e => !bin && e.par) l 0))) :
    readPart a h k kreq kpar =
      some (l.map fun e => { eltOut m e with req := e.req, par := !bin && e.par }) := by
  unfold readPart
  split_ifs with h0
  · have : l = [] := by
      apply List.length_eq_zero_iff.1
      have := hs.1
      omega
    subst this
    rfl
  · rw [readElts_spec m a l h k he hs, Option.bind_some,
      readMarks_spec _ _ _ _ _ _ hr, Option.bind_some, readMarks_spec _ _ _ _ _ _ hp]
    congr 1
    apply List.map_congr_left
    intro e _
    cases e.req <;> cases (!bin && e.par) <;> rfl

theorem readMesh_spec (bin : Bool) (pr : R → R) (fl : R → R) (zero : R)
    (neg : List (R × R × R) → Bool) (nz : R × R × R → R × R × R) (iso : Bool) (m : Mesh R)
    (h : Hdr R) (hv : Valid m) (hf : Found bin pr m h) :
    readMesh fl zero neg nz iso h = some (stored bin pr zero neg nz iso m) := by
  set T := m.tets.filter fun e => e.ok with hT
  have hTok : ∀ e ∈ T, EltOK m 4 e := fun e he => hv.tets e (List.mem_filter.1 he).1
    (List.mem_filter.1 he).2
  have hPok : ∀ e ∈ m.prisms.filter fun e => e.ok, EltOK m 6 e := fun e he =>
    hv.prisms e (List.mem_filter.1 he).1 (List.mem_filter.1 he).2
  -- there are tetrahedra and vertices
  obtain ⟨e0, he0, he0'⟩ := hv.one
  have hT0 : T.length ≠ 0 := by
    have : e0 ∈ T := List.mem_filter.2 ⟨he0, he0'⟩
    intro hc
    rw [List.length_eq_zero_iff.1 hc] at this
    cases this
  have hK0 : (kept m).length ≠ 0 := by
    obtain ⟨h4, h5⟩ := hv.tets e0 he0 he0'
    cases hvv : e0.v with
    | nil => rw [hvv] at h4; cases h4
    | cons k vs =>
      obtain ⟨h1, p, hp, ho⟩ := h5 k (by rw [hvv]; exact List.mem_cons_self ..)
      obtain ⟨hg, -⟩ := kept_get m k p h1 hp ho
      intro hc
      rw [List.length_eq_zero_iff.1 hc] at hg
      cases hg
  have hc0 : ¬ (h.cnt .vert = 0 ∨ h.cnt .tet = 0) := by
    have h1 : h.cnt .vert = (kept m).length := hf.vert.1
    have h2 : h.cnt .tet = T.length := hf.tet.1
    omega
  -- vertices
  have hpts : readN (readPt fl h.ver zero) (h.cnt .vert).toNat (h.pos .vert)
      = some ((kept m).map (rawPt pr zero)) := by
    obtain ⟨h1, h2⟩ := hf.vert
    obtain ⟨t, ht⟩ := h2 hK0
    rw [h1, ht, hf.ver, Int.toNat_natCast]
    apply readN_flatMap
    intro q _ t
    simp [readPt, reals, readReals, rawPt, pr3]
  obtain ⟨g1, hg1⟩ : ∃ g : Pt R × Nat → Pt R, g = fun q =>
    if q.1.req then { rawPt pr zero q with req := true, nul := false } else rawPt pr zero q :=
    ⟨_, rfl⟩
  obtain ⟨g2, hg2⟩ : ∃ g : Pt R × Nat → Pt R, g = fun q =>
    if (!bin && q.1.par) = true then { g1 q with par := true } else g1 q := ⟨_, rfl⟩
  obtain ⟨g3, hg3⟩ : ∃ g : Pt R × Nat → Pt R, g = fun q =>
    if q.1.crn then { g2 q with crn := true } else g2 q := ⟨_, rfl⟩
  have hreq : readMarks (fun p : Pt R => { p with req := true, nul := false }) h .reqV
      ((kept m).map (rawPt pr zero)) = some ((kept m).map g1) := by
    rw [hg1]; exact readMarks_spec _ _ _ _ _ _ hf.reqV
  have hpar : readMarks (fun p : Pt R => { p with par := true }) h .parV
      ((kept m).map g1) = some ((kept m).map g2) := by
    rw [hg2]; exact readMarks_spec _ _ _ _ _ _ hf.parV
  have hcrn : readMarks (fun p : Pt R => { p with crn := true }) h .corn
      ((kept m).map g2) = some ((kept m).map g3) := by
    rw [hg3]; exact readMarks_spec _ _ _ _ _ _ hf.corn
  -- triangles, quadrilaterals
  have htria := readPart_spec bin m 3 m.tris h .tria .reqTria .parTria hv.tris hf.tria hf.reqTria
    hf.parTria
  have hquad := readPart_spec bin m 4 m.quads h .quad .reqQuad .parQuad
    (fun e he => (hv.quads e he).2) hf.quad hf.reqQuad hf.parQuad
  -- edges
  have hedge : (if h.cnt .edge = 0 then some []
     else (readElts 2 h .edge).bind fun l =>
      (readMarks (fun e => { e with geo := true }) h .ridge l).bind fun l =>
      (readMarks (fun e => { e with req := true }) h .reqEdge l).bind fun l =>
       readMarks (fun e => { e with par := true }) h .parEdge l)
      = some (m.edges.map fun e =>
        { eltOut m e with req := e.req, par := !bin && e.par, geo := e.geo }) := by
    split_ifs with h0
    · have : m.edges = [] := by
        apply List.length_eq_zero_iff.1
        have := hf.edge.1
        omega
      rw [this]
      rfl
    · rw [readElts_spec m 2 m.edges h .edge hv.edges hf.edge, Option.bind_some,
        readMarks_spec _ _ _ _ _ _ hf.ridge, Option.bind_some,
        readMarks_spec _ _ _ _ _ _ hf.reqEdge, Option.bind_some,
        readMarks_spec _ _ _ _ _ _ hf.parEdge]
      congr 1
      apply List.map_congr_left
      intro e _
      cases e.geo <;> cases e.req <;> cases (!bin && e.par) <;> rfl
  -- tetrahedra
  have htet := readElts_spec m 4 T h .tet hTok hf.tet
  have hprism := readElts_spec m 6 _ h .prism hPok hf.prism
  have hvT : ∀ k ∈ T.flatMap (fun e => e.v), 1 ≤ k ∧ ∃ p, m.pts[k - 1]? = some p ∧ p.ok = true := by
    intro k hk
    obtain ⟨e, he, hke⟩ := List.mem_flatMap.1 hk
    exact (hTok e he).2 k hke
  have hvP : ∀ k ∈ (m.prisms.filter fun e => e.ok).flatMap (fun e => e.v),
      1 ≤ k ∧ ∃ p, m.pts[k - 1]? = some p ∧ p.ok = true := by
    intro k hk
    obtain ⟨e, he, hke⟩ := List.mem_flatMap.1 hk
    exact (hPok e he).2 k hke
  have hfm : ∀ l : List Elt, (l.map (eltOut m)).flatMap (fun e => e.v)
      = (l.flatMap fun e => e.v).map (num m) := by
    intro l
    induction l with
    | nil => rfl
    | cons e l ih =>
      rw [List.map_cons, List.flatMap_cons, List.flatMap_cons, List.map_append, ih]
      rfl
  have hinT : ∀ k, k ∈ T.flatMap (fun e => e.v) ↔ inTet m k = true := by
    intro k
    simp only [inTet, List.any_eq_true, Bool.and_eq_true, List.contains_iff_mem, List.mem_flatMap, hT,
      List.mem_filter]
    constructor
    · rintro ⟨e, ⟨h1, h2⟩, h3⟩; exact ⟨e, h1, h2, h3⟩
    · rintro ⟨e, h1, h2, h3⟩; exact ⟨e, ⟨h1, h2⟩, h3⟩
  have hinP : ∀ k, k ∈ (m.prisms.filter fun e => e.ok).flatMap (fun e => e.v) ↔ inPrism m k = true := by
    intro k
    simp only [inPrism, List.any_eq_true, Bool.and_eq_true, List.contains_iff_mem, List.mem_flatMap,
      List.mem_filter]
    constructor
    · rintro ⟨e, ⟨h1, h2⟩, h3⟩; exact ⟨e, h1, h2, h3⟩
    · rintro ⟨e, h1, h2, h3⟩; exact ⟨e, ⟨h1, h2⟩, h3⟩
  unfold readMesh
  rw [if_neg hc0, hpts, Option.bind_some, hreq, Option.bind_some, hpar, Option.bind_some, hcrn,
    Option.bind_some, htria, Option.bind_some, hquad, Option.bind_some, hedge, Option.bind_some, htet,
    Option.bind_some, hfm T, touch_kept m _ _ hvT, Option.bind_some]
  -- orientation
  set f1 : Pt R × Nat → Pt R := fun q => if q.2 ∈ T.flatMap (fun e => e.v) then
    { g3 q with nul := false } else g3 q with hf1
  have hf1e : ∀ q, f1 q = { rawPt pr zero q with
      nul := !(q.1.req || inTet m q.2),
      crn := q.1.crn, req := q.1.req, par := !bin && q.1.par } := by
    intro q
    rw [hf1]
    simp only [hinT, hg3, hg2, hg1]
    cases q.1.crn <;> cases (!bin && q.1.par) <;> cases q.1.req <;> cases inTet m q.2 <;> rfl
  have hor : (T.map (eltOut m)).map (orient neg ((kept m).map f1))
      = T.map fun e => turned neg pr m e (eltOut m e) := by
    rw [List.map_map]
    apply List.map_congr_left
    intro e he
    exact orient_eq neg pr m e (hTok e he) f1 (fun q => by rw [hf1e]; rfl)
  rw [hor, readMarks_spec _ _ _ _ _ _ hf.reqTet, Option.bind_some,
    readMarks_spec _ _ _ _ _ _ hf.parTet, Option.bind_some, hprism, Option.bind_some,
    hfm, touch_kept m _ _ hvP, Option.bind_some]
  set f2 : Pt R × Nat → Pt R := fun q =>
    if q.2 ∈ (m.prisms.filter fun e => e.ok).flatMap (fun e => e.v) then
      { f1 q with nul := false } else f1 q with hf2
  have hf2e : ∀ q, f2 q = { rawPt pr zero q with
      nul := !(q.1.req || inTet m q.2 || inPrism m q.2),
      crn := q.1.crn, req := q.1.req, par := !bin && q.1.par } := by
    intro q
    rw [hf2]
    simp only [hinP, hf1e]
    cases inPrism m q.2 <;> simp
  have hnorm : (if iso then some ((kept m).map f2)
     else if h.cnt .norm ≤ 0 then some ((kept m).map f2)
     else
      (readN (readReals fl (if h.ver = 1 then 1 else 2)) (h.cnt .norm).toNat (h.pos .norm)).bind
        fun norms =>
      (readN readPair (h.cnt .normAt).toNat (h.pos .normAt)).bind fun q =>
        setNormals (norms.map nz) ((kept m).map f2) q)
      = some ((kept m).map (ptOut bin pr zero nz iso m)) := by
    rw [hf.ver, if_neg (show ¬ ((2 : Int) = 1) by decide)]
    obtain ⟨n1, n2⟩ := hf.norm
    obtain ⟨a1, a2⟩ := hf.normAt
    split_ifs with hi hn
    · congr 1
      apply List.map_congr_left
      intro q _
      rw [hf2e]
      simp [ptOut, hi, rawPt]
    · have h00 : (kept m).countP (normal m) = 0 := by omega
      congr 1
      apply List.map_congr_left
      intro q hq
      have := List.countP_eq_zero.1 h00 q hq
      rw [hf2e]
      simp [ptOut, this, rawPt]
    · have hne : (kept m).countP (normal m) ≠ 0 := by omega
      obtain ⟨t1, e1⟩ := n2 hne
      obtain ⟨t2, e2⟩ := a2 hne
      rw [n1, e1, a1, e2, Int.toNat_natCast, List.countP_eq_length_filter,
        readN_flatMap (R := R) _ _ (fun q => pr3 pr q.1.n1) _ _ (by
          intro q _ t
          simp [reals, readReals, pr3]), Option.bind_some, ← List.countP_eq_length_filter,
        readN_pairs, Option.bind_some]
      have hset := setNormals_spec (normal m) (fun q => nz (pr3 pr q.1.n1)) f2
        ((((kept m).filter (normal m)).map fun q => pr3 pr q.1.n1).map nz) (kept m) [] 0
        (by simp)
      simp only [List.nil_append, List.length_nil] at hset
      rw [hset]
      congr 1
      apply List.map_congr_left
      intro q _
      rw [hf2e]
      have hi' : iso = false := by simpa using hi
      cases hN : normal m q <;> simp [ptOut, hN, hi', rawPt]
  rw [hnorm, Option.bind_some]
  unfold stored
  rw [← hT]
  congr 2
  apply List.map_congr_left
  intro e _
  cases e.req <;> cases (!bin && e.par) <;> simp [turned] <;> split_ifs <;> rfl

end Mmg.Io
