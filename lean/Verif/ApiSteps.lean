/- What one call of the interface does to each array. -/
import Verif.ApiLemmas

namespace Mmg.Api

variable {K : Type}

/-- A call that may fail to do anything but only touches array `X`. -/
theorem setVertex_cases {m m' : Mesh K} {c : Fin 3 → K} {ref pos : Int} {b : Bool}
    (h : setVertex m c ref pos = some (m', b)) (hf : m.np ≤ m.npmax) :
    (m' = m ∧ b = false ∧ (m.np = 0 ∨ (m.np : Int) < pos)) ∨ (m.np ≠ 0 ∧ 0 ≤ pos ∧ pos ≤ m.np ∧ b = true ∧
      m' = { m with point := put m.point pos.toNat ⟨c, ref, NUL⟩ }) := by
  unfold setVertex at h
  split_ifs at h with h0 h1 h2 h3 <;> simp only [Option.some.injEq, Prod.mk.injEq] at h <;>
    obtain ⟨rfl, rfl⟩ := h
  · exact Or.inl ⟨rfl, rfl, Or.inl h0⟩
  · exact Or.inl ⟨rfl, rfl, Or.inr (by omega)⟩
  · exact Or.inl ⟨rfl, rfl, Or.inr (by omega)⟩
  · exact Or.inr ⟨h0, by omega, by omega, rfl, rfl⟩

theorem setTriangle_cases {m m' : Mesh K} {v : Fin 3 → Nat} {ref pos : Int} {b : Bool}
    (h : setTriangle m v ref pos = some (m', b)) (hf : m.nt ≤ m.ntmax) :
    (m' = m ∧ b = false ∧ (m.nt = 0 ∨ (m.nt : Int) < pos)) ∨ (m.nt ≠ 0 ∧ 0 ≤ pos ∧ pos ≤ m.nt ∧ b = true ∧
      m' = { m with tria := put m.tria pos.toNat ⟨v, ref, (m.tria pos.toNat).tag⟩ }) := by
  unfold setTriangle at h
  split_ifs at h with h0 h1 h2 h3 <;> simp only [Option.some.injEq, Prod.mk.injEq] at h <;>
    obtain ⟨rfl, rfl⟩ := h
  · exact Or.inl ⟨rfl, rfl, Or.inl h0⟩
  · exact Or.inl ⟨rfl, rfl, Or.inr (by omega)⟩
  · exact Or.inl ⟨rfl, rfl, Or.inr (by omega)⟩
  · exact Or.inr ⟨h0, by omega, by omega, rfl, rfl⟩

theorem setQuadrilateral_cases {m m' : Mesh K} {v : Fin 4 → Nat} {ref pos : Int} {b : Bool}
    (h : setQuadrilateral m v ref pos = some (m', b)) :
    (m' = m ∧ b = false ∧ (m.nquad = 0 ∨ (m.nquad : Int) < pos)) ∨
      (m.nquad ≠ 0 ∧ 0 ≤ pos ∧ pos ≤ m.nquad ∧ b = true ∧
      m' = { m with quadra := put m.quadra pos.toNat ⟨v, ref, (m.quadra pos.toNat).tag⟩ }) := by
  unfold setQuadrilateral at h
  split_ifs at h with h0 h1 h2 <;> simp only [Option.some.injEq, Prod.mk.injEq] at h <;>
    obtain ⟨rfl, rfl⟩ := h
  · exact Or.inl ⟨rfl, rfl, Or.inl h0⟩
  · exact Or.inl ⟨rfl, rfl, Or.inr (by omega)⟩
  · exact Or.inr ⟨h0, by omega, by omega, rfl, rfl⟩

theorem setEdge_cases {m m' : Mesh K} {v : Fin 2 → Nat} {ref pos : Int} {b : Bool}
    (h : setEdge m v ref pos = some (m', b)) (hf : m.na ≤ m.namax) :
    (m' = m ∧ b = false ∧ (m.na = 0 ∨ (m.na : Int) < pos)) ∨ (m.na ≠ 0 ∧ 0 ≤ pos ∧ pos ≤ m.na ∧ b = true ∧
      m' = { m with edge := put m.edge pos.toNat ⟨v, ref, (m.edge pos.toNat).tag ||| REF⟩ }) := by
  unfold setEdge at h
  split_ifs at h with h0 h1 h2 h3 <;> simp only [Option.some.injEq, Prod.mk.injEq] at h <;>
    obtain ⟨rfl, rfl⟩ := h
  · exact Or.inl ⟨rfl, rfl, Or.inl h0⟩
  · exact Or.inl ⟨rfl, rfl, Or.inr (by omega)⟩
  · exact Or.inl ⟨rfl, rfl, Or.inr (by omega)⟩
  · exact Or.inr ⟨h0, by omega, by omega, rfl, rfl⟩

theorem setPrism_cases {m m' : Mesh K} {v : Fin 6 → Nat} {ref pos : Int} {b : Bool}
    (h : setPrism m v ref pos = some (m', b)) :
    (m' = m ∧ b = false ∧ (m.nprism = 0 ∨ (m.nprism : Int) < pos)) ∨
      (m.nprism ≠ 0 ∧ 0 ≤ pos ∧ pos ≤ m.nprism ∧ b = true ∧ SameV m m' ∧
      (∀ c, (m'.point (v c)).tag.getLsbD 15 = false) ∧
      m' = { m with
        point := m'.point
        prism := put m.prism pos.toNat ⟨v, ref, (m.prism pos.toNat).tag⟩ }) := by
  unfold setPrism at h
  split_ifs at h with h0 h1 h2
  · simp only [Option.some.injEq, Prod.mk.injEq] at h
    obtain ⟨rfl, rfl⟩ := h
    exact Or.inl ⟨rfl, rfl, Or.inl h0⟩
  · simp only [Option.some.injEq, Prod.mk.injEq] at h
    obtain ⟨rfl, rfl⟩ := h
    exact Or.inl ⟨rfl, rfl, Or.inr (by omega)⟩
  · simp only [Option.map_eq_some_iff, Prod.mk.injEq] at h
    obtain ⟨a, h1, rfl, rfl⟩ := h
    have u := unNuls_used h1
    refine Or.inr ⟨h0, by omega, by omega, rfl, ⟨u.same.c, u.same.ref, u.same.tag⟩, ?_, ?_⟩
    · intro c
      rw [u.tag]
      fin_cases c <;> simp
    · rw [u.rest]

theorem ptag_cases {m m' : Mesh K} {k : Nat} {f : Tag → Tag} (h : ptag m k f = some m') :
    m' = { m with point := put m.point k ⟨(m.point k).c, (m.point k).ref, f (m.point k).tag⟩ } := by
  unfold ptag at h
  split_ifs at h
  exact (Option.some.inj h).symm

theorem ttag_cases {m m' : Mesh K} {k : Nat} {f : Tag → Tag} (h : ttag m k f = some m') :
    m' = { m with tetra := put m.tetra k ⟨(m.tetra k).v, (m.tetra k).ref, f (m.tetra k).tag⟩ } := by
  unfold ttag at h
  split_ifs at h
  exact (Option.some.inj h).symm

theorem ftag_cases {m m' : Mesh K} {k : Nat} {f : Tag → Tag} (h : ftag m k f = some m') :
    m' = { m with tria := put m.tria k ⟨(m.tria k).v, (m.tria k).ref, fun c => f ((m.tria k).tag c)⟩ } := by
  unfold ftag at h
  split_ifs at h
  have e : (fun c => f ((m.tria k).tag c)) =
      ![f ((m.tria k).tag 0), f ((m.tria k).tag 1), f ((m.tria k).tag 2)] := by
    funext c; fin_cases c <;> rfl
  rw [e]
  exact (Option.some.inj h).symm

theorem etag_cases {m m' : Mesh K} {k : Nat} {f : Tag → Tag} (h : etag m k f = some m') :
    m' = { m with edge := put m.edge k ⟨(m.edge k).v, (m.edge k).ref, f (m.edge k).tag⟩ } := by
  unfold etag at h
  split_ifs at h
  exact (Option.some.inj h).symm

/-- A loop of tag changes over tetrahedra. -/
theorem overList_ttag {f : Tag → Tag} (hid : ∀ t, f (f t) = f t) {l : List Nat} {m m' : Mesh K}
    (h : overList (fun m k => ttag m k f) l m = some m') :
    m' = { m with
      tetra := fun k => ⟨(m.tetra k).v, (m.tetra k).ref, if k ∈ l then f (m.tetra k).tag else (m.tetra k).tag⟩ } := by
  induction l generalizing m with
  | nil => simp only [overList, Option.some.injEq] at h; subst h; simp
  | cons a l ih =>
    simp only [overList, Option.bind_eq_some_iff] at h
    obtain ⟨m1, h1, h2⟩ := h
    have e1 := ttag_cases h1
    rw [ih h2, e1]
    simp only [Mesh.mk.injEq, true_and, and_true]
    funext k
    simp only [put, List.mem_cons]
    by_cases e : k = a
    · subst e
      by_cases hk : k ∈ l <;> simp [hk, hid]
    · by_cases hk : k ∈ l <;> simp [hk, e]

/-- A loop of tag changes over triangles. -/
theorem overList_ftag {f : Tag → Tag} (hid : ∀ t, f (f t) = f t) {l : List Nat} {m m' : Mesh K}
    (h : overList (fun m k => ftag m k f) l m = some m') :
    m' = { m with
      tria := fun k => ⟨(m.tria k).v, (m.tria k).ref,
        fun c => if k ∈ l then f ((m.tria k).tag c) else (m.tria k).tag c⟩ } := by
  induction l generalizing m with
  | nil => simp only [overList, Option.some.injEq] at h; subst h; simp
  | cons a l ih =>
    simp only [overList, Option.bind_eq_some_iff] at h
    obtain ⟨m1, h1, h2⟩ := h
    have e1 := ftag_cases h1
    rw [ih h2, e1]
    simp only [Mesh.mk.injEq, true_and, and_true]
    funext k
    simp only [put, List.mem_cons]
    by_cases e : k = a
    · subst e
      by_cases hk : k ∈ l <;> simp [hk, hid]
    · by_cases hk : k ∈ l <;> simp [hk, e]

theorem or_idem (t s : Tag) : (t ||| s) ||| s = t ||| s := by
  rw [BitVec.or_assoc, BitVec.or_self]
theorem andn_idem (t s : Tag) : (t &&& ~~~s) &&& ~~~s = t &&& ~~~s := by
  rw [BitVec.and_assoc, BitVec.and_self]

section
variable [CommRing K] [LinearOrder K]

/-- No call changes the announced or allocated sizes. -/
theorem step_sizes {eps : K} {m m' : Mesh K} {op : Op K} (hf : m.Fits) (h : step eps m op = some m') :
    m' = { m with point := m'.point, tetra := m'.tetra, prism := m'.prism, tria := m'.tria,
                  quadra := m'.quadra, edge := m'.edge, xt := m'.xt, xp := m'.xp } := by
  cases op <;> simp only [step, Option.map_eq_some_iff, Prod.exists, exists_and_right, exists_eq_right,
    Option.some.injEq] at h
  case setVertex => obtain ⟨b, h⟩ := h; rcases setVertex_cases h hf.p with ⟨rfl, _⟩ | ⟨_, _, _, _, e⟩ <;> [rfl; rw [e]]
  case setVertices => rw [← h, setVertices_eq]
  case setTetrahedron =>
    obtain ⟨b, h⟩ := h
    rcases setTetrahedron_spec h hf.e with ⟨rfl, _⟩ | ⟨_, _, _, _, e, _⟩ <;> [rfl; rw [e]]
  case setTetrahedra => obtain ⟨b, h⟩ := h; rw [(setTetrahedraLoop_spec h).rest]
  case setPrism => obtain ⟨b, h⟩ := h; rcases setPrism_cases h with ⟨rfl, _⟩ | ⟨_, _, _, _, _, _, e⟩ <;> [rfl; rw [e]]
  case setPrisms => rw [(setPrisms_spec _ _ _ _ h).1]
  case setTriangle => obtain ⟨b, h⟩ := h; rcases setTriangle_cases h hf.t with ⟨rfl, _⟩ | ⟨_, _, _, _, e⟩ <;> [rfl; rw [e]]
  case setTriangles => rw [← h, setTriangles_eq]
  case setQuadrilateral =>
    obtain ⟨b, h⟩ := h; rcases setQuadrilateral_cases h with ⟨rfl, _⟩ | ⟨_, _, _, _, e⟩ <;> [rfl; rw [e]]
  case setQuadrilaterals => rw [← h, setQuadrilaterals_eq]
  case setEdge => obtain ⟨b, h⟩ := h; rcases setEdge_cases h hf.a with ⟨rfl, _⟩ | ⟨_, _, _, _, e⟩ <;> [rfl; rw [e]]
  case setEdges => rw [← h, setEdges_eq]
  case setCorner => rw [ptag_cases h]
  case unsetCorner => rw [ptag_cases h]
  case setRequiredVertex => rw [ptag_cases h]
  case unsetRequiredVertex => rw [ptag_cases h]
  case setRequiredTetrahedron => rw [ttag_cases h]
  case unsetRequiredTetrahedron => rw [ttag_cases h]
  case setRequiredTetrahedra => rw [overList_ttag (fun t => or_idem t REQ) h]
  case unsetRequiredTetrahedra => rw [overList_ttag (fun t => andn_idem t REQ) h]
  case setRequiredTriangle => rw [ftag_cases h]
  case unsetRequiredTriangle => rw [ftag_cases h]
  case setRequiredTriangles => rw [overList_ftag (fun t => or_idem t REQ) h]
  case unsetRequiredTriangles => rw [overList_ftag (fun t => andn_idem t REQ) h]
  case setParallelTriangle => rw [ftag_cases h]
  case unsetParallelTriangle => rw [ftag_cases h]
  case setParallelTriangles => rw [overList_ftag (fun t => or_idem t PARBDY) h]
  case unsetParallelTriangles => rw [overList_ftag (fun t => andn_idem t PARBDY) h]
  case setRidge => rw [etag_cases h]
  case unsetRidge => rw [etag_cases h]
  case setRequiredEdge => rw [etag_cases h]
  case unsetRequiredEdge => rw [etag_cases h]

/-- The calls that write vertices or vertex flags. -/
def Op.onVertex : Op K → Bool
  | .setVertex .. | .setVertices .. | .setCorner _ | .unsetCorner _ | .setRequiredVertex _
  | .unsetRequiredVertex _ => true
  | _ => false

/-- The calls that write tetrahedra or their flags. -/
def Op.onTetra : Op K → Bool
  | .setTetrahedron .. | .setTetrahedra .. | .setRequiredTetrahedron _ | .unsetRequiredTetrahedron _
  | .setRequiredTetrahedra _ | .unsetRequiredTetrahedra _ => true
  | _ => false

/-- The calls that write prisms. -/
def Op.onPrism : Op K → Bool
  | .setPrism .. | .setPrisms .. => true
  | _ => false

/-- The calls that write triangles or their flags. -/
def Op.onTria : Op K → Bool
  | .setTriangle .. | .setTriangles .. | .setRequiredTriangle _ | .unsetRequiredTriangle _
  | .setRequiredTriangles _ | .unsetRequiredTriangles _ | .setParallelTriangle _ | .unsetParallelTriangle _
  | .setParallelTriangles _ | .unsetParallelTriangles _ => true
  | _ => false

/-- The calls that write quadrilaterals. -/
def Op.onQuad : Op K → Bool
  | .setQuadrilateral .. | .setQuadrilaterals .. => true
  | _ => false

/-- The calls that write edges or their flags. -/
def Op.onEdge : Op K → Bool
  | .setEdge .. | .setEdges .. | .setRidge _ | .unsetRidge _ | .setRequiredEdge _ | .unsetRequiredEdge _ => true
  | _ => false

/-- Calls on other entities do not touch a given array. -/
theorem step_frame {eps : K} {m m' : Mesh K} {op : Op K} (hf : m.Fits) (h : step eps m op = some m') :
    (op.onVertex = false → SameV m m') ∧ (op.onTetra = false → m'.tetra = m.tetra) ∧
    (op.onPrism = false → m'.prism = m.prism) ∧ (op.onTria = false → m'.tria = m.tria) ∧
    (op.onQuad = false → m'.quadra = m.quadra) ∧ (op.onEdge = false → m'.edge = m.edge) := by
  have hsame : ∀ {a b : Mesh K}, b.point = a.point → SameV a b := fun e => SameV.of_point e
  cases op <;> simp only [step, Option.map_eq_some_iff, Prod.exists, exists_and_right, exists_eq_right,
    Option.some.injEq] at h <;>
    simp only [Op.onVertex, Op.onTetra, Op.onPrism, Op.onTria, Op.onQuad, Op.onEdge, Bool.true_eq_false,
      false_implies, true_implies, true_and, and_true]
  case setVertex =>
    obtain ⟨b, h⟩ := h
    rcases setVertex_cases h hf.p with ⟨rfl, _⟩ | ⟨_, _, _, _, e⟩ <;> [simp; (rw [e]; simp)]
  case setVertices => rw [← h, setVertices_eq]; simp
  case setTetrahedron =>
    obtain ⟨b, h⟩ := h
    rcases setTetrahedron_spec h hf.e with ⟨rfl, _⟩ | ⟨_, _, _, s, e, _⟩
    · simp [SameV.refl]
    · exact ⟨s, by rw [e], by rw [e], by rw [e], by rw [e]⟩
  case setTetrahedra =>
    obtain ⟨b, h⟩ := h
    have T := setTetrahedraLoop_spec h
    exact ⟨⟨T.same.c, T.same.ref, T.same.tag⟩, by rw [T.rest], by rw [T.rest], by rw [T.rest], by rw [T.rest]⟩
  case setPrism =>
    obtain ⟨b, h⟩ := h
    rcases setPrism_cases h with ⟨rfl, _⟩ | ⟨_, _, _, _, s, _, e⟩
    · simp [SameV.refl]
    · exact ⟨s, by rw [e], by rw [e], by rw [e], by rw [e]⟩
  case setPrisms =>
    obtain ⟨e, s⟩ := setPrisms_spec _ _ _ _ h
    exact ⟨s, by rw [e], by rw [e], by rw [e], by rw [e]⟩
  case setTriangle =>
    obtain ⟨b, h⟩ := h
    rcases setTriangle_cases h hf.t with ⟨rfl, _⟩ | ⟨_, _, _, _, e⟩
    · simp [SameV.refl]
    · rw [e]; exact ⟨hsame rfl, rfl, rfl, rfl, rfl⟩
  case setTriangles => rw [← h, setTriangles_eq]; exact ⟨hsame rfl, rfl, rfl, rfl, rfl⟩
  case setQuadrilateral =>
    obtain ⟨b, h⟩ := h
    rcases setQuadrilateral_cases h with ⟨rfl, _⟩ | ⟨_, _, _, _, e⟩
    · simp [SameV.refl]
    · rw [e]; exact ⟨hsame rfl, rfl, rfl, rfl, rfl⟩
  case setQuadrilaterals => rw [← h, setQuadrilaterals_eq]; exact ⟨hsame rfl, rfl, rfl, rfl, rfl⟩
  case setEdge =>
    obtain ⟨b, h⟩ := h
    rcases setEdge_cases h hf.a with ⟨rfl, _⟩ | ⟨_, _, _, _, e⟩
    · simp [SameV.refl]
    · rw [e]; exact ⟨hsame rfl, rfl, rfl, rfl, rfl⟩
  case setEdges => rw [← h, setEdges_eq]; exact ⟨hsame rfl, rfl, rfl, rfl, rfl⟩
  case setCorner => rw [ptag_cases h]; simp
  case unsetCorner => rw [ptag_cases h]; simp
  case setRequiredVertex => rw [ptag_cases h]; simp
  case unsetRequiredVertex => rw [ptag_cases h]; simp
  case setRequiredTetrahedron => rw [ttag_cases h]; exact ⟨hsame rfl, rfl, rfl, rfl, rfl⟩
  case unsetRequiredTetrahedron => rw [ttag_cases h]; exact ⟨hsame rfl, rfl, rfl, rfl, rfl⟩
  case setRequiredTetrahedra =>
    rw [overList_ttag (fun t => or_idem t REQ) h]; exact ⟨hsame rfl, rfl, rfl, rfl, rfl⟩
  case unsetRequiredTetrahedra =>
    rw [overList_ttag (fun t => andn_idem t REQ) h]; exact ⟨hsame rfl, rfl, rfl, rfl, rfl⟩
  case setRequiredTriangle => rw [ftag_cases h]; exact ⟨hsame rfl, rfl, rfl, rfl, rfl⟩
  case unsetRequiredTriangle => rw [ftag_cases h]; exact ⟨hsame rfl, rfl, rfl, rfl, rfl⟩
  case setRequiredTriangles =>
    rw [overList_ftag (fun t => or_idem t REQ) h]; exact ⟨hsame rfl, rfl, rfl, rfl, rfl⟩
  case unsetRequiredTriangles =>
    rw [overList_ftag (fun t => andn_idem t REQ) h]; exact ⟨hsame rfl, rfl, rfl, rfl, rfl⟩
  case setParallelTriangle => rw [ftag_cases h]; exact ⟨hsame rfl, rfl, rfl, rfl, rfl⟩
  case unsetParallelTriangle => rw [ftag_cases h]; exact ⟨hsame rfl, rfl, rfl, rfl, rfl⟩
  case setParallelTriangles =>
    rw [overList_ftag (fun t => or_idem t PARBDY) h]; exact ⟨hsame rfl, rfl, rfl, rfl, rfl⟩
  case unsetParallelTriangles =>
    rw [overList_ftag (fun t => andn_idem t PARBDY) h]; exact ⟨hsame rfl, rfl, rfl, rfl, rfl⟩
  case setRidge => rw [etag_cases h]; exact ⟨hsame rfl, rfl, rfl, rfl, rfl⟩
  case unsetRidge => rw [etag_cases h]; exact ⟨hsame rfl, rfl, rfl, rfl, rfl⟩
  case setRequiredEdge => rw [etag_cases h]; exact ⟨hsame rfl, rfl, rfl, rfl, rfl⟩
  case unsetRequiredEdge => rw [etag_cases h]; exact ⟨hsame rfl, rfl, rfl, rfl, rfl⟩

/-- Sizes along a history. -/
theorem run_sizes {eps : K} {m0 m : Mesh K} (hf : m0.Fits) {h : List (Op K)} (hr : run eps m0 h = some m) :
    m = { m0 with point := m.point, tetra := m.tetra, prism := m.prism, tria := m.tria,
                  quadra := m.quadra, edge := m.edge, xt := m.xt, xp := m.xp } := by
  induction h generalizing m with
  | nil => simp only [run, Option.some.injEq] at hr; subst hr; rfl
  | cons op older ih =>
    simp only [run, Option.bind_eq_some_iff] at hr
    obtain ⟨m1, h1, h2⟩ := hr
    have e1 := ih h1
    have hf1 : m1.Fits := by rw [e1]; exact ⟨hf.p, hf.e, hf.t, hf.a⟩
    have e2 := step_sizes hf1 h2
    rw [e2, e1]

theorem run_fits {eps : K} {m0 m : Mesh K} (hf : m0.Fits) {h : List (Op K)} (hr : run eps m0 h = some m) :
    m.Fits := by
  rw [run_sizes hf hr]; exact ⟨hf.p, hf.e, hf.t, hf.a⟩

theorem run_np {eps : K} {m0 m : Mesh K} (hf : m0.Fits) {h : List (Op K)} (hr : run eps m0 h = some m) :
    m.np = m0.np := by rw [run_sizes hf hr]
theorem run_ne {eps : K} {m0 m : Mesh K} (hf : m0.Fits) {h : List (Op K)} (hr : run eps m0 h = some m) :
    m.ne = m0.ne := by rw [run_sizes hf hr]
theorem run_nprism {eps : K} {m0 m : Mesh K} (hf : m0.Fits) {h : List (Op K)} (hr : run eps m0 h = some m) :
    m.nprism = m0.nprism := by rw [run_sizes hf hr]
theorem run_nt {eps : K} {m0 m : Mesh K} (hf : m0.Fits) {h : List (Op K)} (hr : run eps m0 h = some m) :
    m.nt = m0.nt := by rw [run_sizes hf hr]
theorem run_nquad {eps : K} {m0 m : Mesh K} (hf : m0.Fits) {h : List (Op K)} (hr : run eps m0 h = some m) :
    m.nquad = m0.nquad := by rw [run_sizes hf hr]
theorem run_na {eps : K} {m0 m : Mesh K} (hf : m0.Fits) {h : List (Op K)} (hr : run eps m0 h = some m) :
    m.na = m0.na := by rw [run_sizes hf hr]

end

/-! ### Block getters -/

theorem getVertices_spec (m : Mesh K) (b : VBuf K) (k : Nat) (h1 : 1 ≤ k) (h2 : k ≤ m.np) :
    (∀ c : Fin 3, (getVertices m b).vertices ((k - 1) * 3 + c) = (m.point k).c c) ∧
    (getVertices m b).refs (k - 1) = (m.point k).ref ∧
    (getVertices m b).corners (k - 1) = has (m.point k).tag CRN ∧
    (getVertices m b).required (k - 1) = has (m.point k).tag REQ := by
  unfold getVertices
  generalize m.np = n at h2
  induction n with
  | zero => omega
  | succ n ih =>
    simp only [forTo, getVerticesBody, Nat.add_sub_cancel]
    by_cases e : k = n + 1
    · subst e
      refine ⟨?_, by simp, by simp, by simp⟩
      intro c
      fin_cases c <;> simp [put]
    · obtain ⟨a, b', c', d⟩ := ih (by omega)
      refine ⟨?_, ?_, ?_, ?_⟩
      · intro c
        have : (c : Nat) < 3 := c.2
        rw [put_ne _ _ (by omega), put_ne _ _ (by omega), put_ne _ _ (by omega)]
        exact a c
      · rw [put_ne _ _ (by omega)]; exact b'
      · rw [put_ne _ _ (by omega)]; exact c'
      · rw [put_ne _ _ (by omega)]; exact d

/-- Nothing is written past the announced sizes. -/
theorem getVertices_out (m : Mesh K) (b : VBuf K) (x : Nat) :
    (3 * m.np ≤ x → (getVertices m b).vertices x = b.vertices x) ∧
    (m.np ≤ x → (getVertices m b).refs x = b.refs x ∧ (getVertices m b).corners x = b.corners x ∧
      (getVertices m b).required x = b.required x) := by
  unfold getVertices
  generalize m.np = n
  induction n with
  | zero => simp [forTo]
  | succ n ih =>
    simp only [forTo, getVerticesBody, Nat.add_sub_cancel]
    refine ⟨fun h => ?_, fun h => ?_⟩
    · rw [put_ne _ _ (by omega), put_ne _ _ (by omega), put_ne _ _ (by omega)]
      exact ih.1 (by omega)
    · rw [put_ne _ _ (by omega), put_ne _ _ (by omega), put_ne _ _ (by omega)]
      exact ih.2 (by omega)

theorem getTetrahedra_spec (m : Mesh K) (b : EBuf) (k : Nat) (h1 : 1 ≤ k) (h2 : k ≤ m.ne) :
    (∀ c : Fin 4, (getTetrahedra m b).v ((k - 1) * 4 + c) = (m.tetra k).v c) ∧
    (getTetrahedra m b).refs (k - 1) = (m.tetra k).ref ∧
    (getTetrahedra m b).required (k - 1) = has (m.tetra k).tag REQ := by
  unfold getTetrahedra
  generalize m.ne = n at h2
  induction n with
  | zero => omega
  | succ n ih =>
    simp only [forTo, Nat.add_sub_cancel]
    by_cases e : k = n + 1
    · subst e
      refine ⟨?_, by simp, by simp⟩
      intro c
      fin_cases c <;> simp [put]
    · obtain ⟨a, b', d⟩ := ih (by omega)
      refine ⟨?_, ?_, ?_⟩
      · intro c
        have : (c : Nat) < 4 := c.2
        rw [put_ne _ _ (by omega), put_ne _ _ (by omega), put_ne _ _ (by omega), put_ne _ _ (by omega)]
        exact a c
      · rw [put_ne _ _ (by omega)]; exact b'
      · rw [put_ne _ _ (by omega)]; exact d

/-- The order in which `MMG3D_Get_prisms` writes the vertices of a prism. -/
def swap12 (v : Fin 6 → Nat) : Fin 6 → Nat := ![v 0, v 2, v 1, v 3, v 4, v 5]

theorem getPrisms_spec (m : Mesh K) (b : EBuf) (k : Nat) (h1 : 1 ≤ k) (h2 : k ≤ m.nprism) :
    (∀ c : Fin 6, (getPrisms m b).v ((k - 1) * 6 + c) = swap12 (m.prism k).v c) ∧
    (getPrisms m b).refs (k - 1) = (m.prism k).ref ∧
    (getPrisms m b).required (k - 1) = has (m.prism k).tag REQ := by
  unfold getPrisms
  generalize m.nprism = n at h2
  induction n with
  | zero => omega
  | succ n ih =>
    simp only [forTo, Nat.add_sub_cancel]
    by_cases e : k = n + 1
    · subst e
      refine ⟨?_, by simp, by simp⟩
      intro c
      fin_cases c <;> simp [put, swap12]
    · obtain ⟨a, b', d⟩ := ih (by omega)
      refine ⟨?_, ?_, ?_⟩
      · intro c
        have : (c : Nat) < 6 := c.2
        rw [put_ne _ _ (by omega), put_ne _ _ (by omega), put_ne _ _ (by omega), put_ne _ _ (by omega),
          put_ne _ _ (by omega), put_ne _ _ (by omega)]
        exact a c
      · rw [put_ne _ _ (by omega)]; exact b'
      · rw [put_ne _ _ (by omega)]; exact d

theorem getTriangles_spec (m : Mesh K) (b : EBuf) (k : Nat) (h1 : 1 ≤ k) (h2 : k ≤ m.nt) :
    (∀ c : Fin 3, (getTriangles m b).v ((k - 1) * 3 + c) = (m.tria k).v c) ∧
    (getTriangles m b).refs (k - 1) = (m.tria k).ref ∧
    (getTriangles m b).required (k - 1) =
      (has ((m.tria k).tag 0) REQ && has ((m.tria k).tag 1) REQ && has ((m.tria k).tag 2) REQ) := by
  unfold getTriangles
  generalize m.nt = n at h2
  induction n with
  | zero => omega
  | succ n ih =>
    simp only [forTo, Nat.add_sub_cancel]
    by_cases e : k = n + 1
    · subst e
      refine ⟨?_, by simp, by simp⟩
      intro c
      fin_cases c <;> simp [put]
    · obtain ⟨a, b', d⟩ := ih (by omega)
      refine ⟨?_, ?_, ?_⟩
      · intro c
        have : (c : Nat) < 3 := c.2
        rw [put_ne _ _ (by omega), put_ne _ _ (by omega), put_ne _ _ (by omega)]
        exact a c
      · rw [put_ne _ _ (by omega)]; exact b'
      · rw [put_ne _ _ (by omega)]; exact d

theorem getQuadrilaterals_spec (m : Mesh K) (b : EBuf) (k : Nat) (h1 : 1 ≤ k) (h2 : k ≤ m.nquad) :
    (∀ c : Fin 4, (getQuadrilaterals m b).v ((k - 1) * 4 + c) = (m.quadra k).v c) ∧
    (getQuadrilaterals m b).refs (k - 1) = (m.quadra k).ref ∧
    (getQuadrilaterals m b).required (k - 1) =
      (has ((m.quadra k).tag 0) REQ && has ((m.quadra k).tag 1) REQ && has ((m.quadra k).tag 2) REQ &&
        has ((m.quadra k).tag 3) REQ) := by
  unfold getQuadrilaterals
  generalize m.nquad = n at h2
  induction n with
  | zero => omega
  | succ n ih =>
    simp only [forTo, Nat.add_sub_cancel]
    by_cases e : k = n + 1
    · subst e
      refine ⟨?_, by simp, by simp⟩
      intro c
      fin_cases c <;> simp [put]
    · obtain ⟨a, b', d⟩ := ih (by omega)
      refine ⟨?_, ?_, ?_⟩
      · intro c
        have : (c : Nat) < 4 := c.2
        rw [put_ne _ _ (by omega), put_ne _ _ (by omega), put_ne _ _ (by omega), put_ne _ _ (by omega)]
        exact a c
      · rw [put_ne _ _ (by omega)]; exact b'
      · rw [put_ne _ _ (by omega)]; exact d

theorem getEdges_spec (m : Mesh K) (b : AEBuf) (k : Nat) (h1 : 1 ≤ k) (h2 : k ≤ m.na) :
    (∀ c : Fin 2, (getEdges m b).v ((k - 1) * 2 + c) = (m.edge k).v c) ∧
    (getEdges m b).refs (k - 1) = (m.edge k).ref ∧
    (getEdges m b).ridges (k - 1) = has (m.edge k).tag GEO ∧
    (getEdges m b).required (k - 1) = has (m.edge k).tag REQ := by
  unfold getEdges
  generalize m.na = n at h2
  induction n with
  | zero => omega
  | succ n ih =>
    simp only [forTo, Nat.add_sub_cancel]
    by_cases e : k = n + 1
    · subst e
      refine ⟨?_, by simp, by simp, by simp⟩
      intro c
      fin_cases c <;> simp [put]
    · obtain ⟨a, b', g, d⟩ := ih (by omega)
      refine ⟨?_, ?_, ?_, ?_⟩
      · intro c
        have : (c : Nat) < 2 := c.2
        rw [put_ne _ _ (by omega), put_ne _ _ (by omega)]
        exact a c
      · rw [put_ne _ _ (by omega)]; exact b'
      · rw [put_ne _ _ (by omega)]; exact g
      · rw [put_ne _ _ (by omega)]; exact d

end Mmg.Api
