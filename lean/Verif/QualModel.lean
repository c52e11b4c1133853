/-
  C67. Quality of tetrahedra and triangles.

  Real arithmetic; `sqrt` is the square root.
-/
import Verif.Split3Spec
import Mathlib.Analysis.Real.Sqrt
import Mathlib.Tactic.Ring
import Mathlib.Tactic.Linarith
import Mathlib.Tactic.Positivity
import Mathlib.Tactic.NormNum
import Mathlib.Tactic.LinearCombination

namespace Mmg.Qual

open Mmg.Split3 (Pt)

/-- `MMG5_EPSD2`, common/mmgcommon_private.h 95. -/
noncomputable def EPSD2 : ℝ := 1 / 10 ^ 200

/-- `MMG5_NULKAL`, common/mmgcommon_private.h 98. -/
noncomputable def NULKAL : ℝ := 1 / 10 ^ 30

/-- `MMG5_EPSOK`, common/mmgcommon_private.h 97. -/
noncomputable def EPSOK : ℝ := 1 / 10 ^ 15

/-- `MMG3D_ALPHAD`, mmg3d/libmmg3d_private.h 138. -/
noncomputable def ALPHA3 : ℝ := 20.7846096908265

/-- `MMG2D_ALPHAD`, mmg2d/libmmg2d_private.h 57. -/
noncomputable def ALPHA2 : ℝ := 3.464101615137755

/-- Volume as computed by the qualities: `ab . (ac ^ ad)`, six times the volume,
mmg3d/inlined_functions_3d_private.h 346-366. -/
def vol6 (a b c d : Pt ℝ) : ℝ :=
  let v1 := (c.y - a.y) * (d.z - a.z) - (c.z - a.z) * (d.y - a.y)
  let v2 := (c.z - a.z) * (d.x - a.x) - (c.x - a.x) * (d.z - a.z)
  let v3 := (c.x - a.x) * (d.y - a.y) - (c.y - a.y) * (d.x - a.x)
  (b.x - a.x) * v1 + (b.y - a.y) * v2 + (b.z - a.z) * v3

/-- Square of the length of an edge, mmg3d/inlined_functions_3d_private.h 349. -/
def sq (a b : Pt ℝ) : ℝ :=
  (b.x - a.x) * (b.x - a.x) + (b.y - a.y) * (b.y - a.y) + (b.z - a.z) * (b.z - a.z)

/-- `MMG5_caltet_iso_4pt`, mmg3d/inlined_functions_3d_private.h 340-386. -/
noncomputable def calIso (a b c d : Pt ℝ) : ℝ :=
  if vol6 a b c d < EPSD2 then 0
  else
    let rap := sq a b + sq a c + sq a d + sq b c + sq b d + sq c d
    if rap < EPSD2 then 0 else vol6 a b c d / (rap * √rap)

/-- A symmetric matrix: `m[0]` to `m[5]` are `a b c d e f` with rows `(a b c) (b d e) (c e f)`. -/
structure Sym3 where
  (a b c d e f : ℝ)

/-- Determinant of the metric, mmg3d/inlined_functions_3d_private.h 493-495. -/
def Sym3.det (m : Sym3) : ℝ :=
  m.a * (m.d * m.f - m.e * m.e) - m.b * (m.b * m.f - m.c * m.e) + m.c * (m.b * m.e - m.c * m.d)

/-- Square of the length of an edge in the metric, mmg3d/inlined_functions_3d_private.h 502-513. -/
def Sym3.len2 (m : Sym3) (p q : Pt ℝ) : ℝ :=
  let x := q.x - p.x
  let y := q.y - p.y
  let z := q.z - p.z
  m.a * x * x + m.d * y * y + m.f * z * z + 2 * (m.b * x * y + m.c * x * z + m.e * y * z)

/-- `MMG5_caltet33_ani` (mmg3d/quality_3d.c 109-200) and `MMG5_caltet_ani`
(mmg3d/inlined_functions_3d_private.h 429-513), from the mean metric on: `none` when the square root or the division is not a number (`rap ≤ 0`). -/
noncomputable def calAni (m : Sym3) (a b c d : Pt ℝ) : Option ℝ :=
  if vol6 a b c d ≤ 0 then some 0
  else if m.det < EPSD2 then some 0
  else
    let rap := m.len2 a b + m.len2 a c + m.len2 a d + m.len2 b c + m.len2 b d + m.len2 c d
    if rap ≤ 0 then none else some (√m.det * vol6 a b c d / (√rap * rap))

/-- Mean of the metrics of the four vertices, `MMG5_caltet33_ani`, mmg3d/quality_3d.c 128-130. -/
noncomputable def mean4 (m0 m1 m2 m3 : Sym3) : Sym3 :=
  ⟨1 / 4 * (m0.a + m1.a + m2.a + m3.a), 1 / 4 * (m0.b + m1.b + m2.b + m3.b),
    1 / 4 * (m0.c + m1.c + m2.c + m3.c), 1 / 4 * (m0.d + m1.d + m2.d + m3.d),
    1 / 4 * (m0.e + m1.e + m2.e + m3.e), 1 / 4 * (m0.f + m1.f + m2.f + m3.f)⟩

/-- A point of the plane. -/
structure Pt2 where
  (x y : ℝ)

/-- Orientation (twice the area), mmg2d/quality_2d.c 79. -/
def area2 (a b c : Pt2) : ℝ := (b.x - a.x) * (c.y - a.y) - (b.y - a.y) * (c.x - a.x)

def sq2 (a b : Pt2) : ℝ := (b.x - a.x) * (b.x - a.x) + (b.y - a.y) * (b.y - a.y)

/-- `MMG2D_caltri_iso_3pt`, mmg2d/quality_2d.c 68-95. -/
noncomputable def calTri (a b c : Pt2) : ℝ :=
  if area2 a b c ≤ 0 then 0
  else
    let hm := sq2 a b + sq2 a c + sq2 b c
    if 0 < hm then area2 a b c / hm else 0

/-- A symmetric matrix with rows `(a b) (b d)`. -/
structure Sym2 where
  (a b d : ℝ)

def Sym2.len2 (m : Sym2) (p q : Pt2) : ℝ :=
  let x := q.x - p.x
  let y := q.y - p.y
  m.a * x * x + m.d * y * y + 2 * m.b * x * y

/-- `MMG2D_caltri_ani` from the mean metric on, mmg2d/quality_2d.c 148-173: `none` when a square root is
not a number. -/
noncomputable def calTriAni (m : Sym2) (a b c : Pt2) : Option ℝ :=
  if area2 a b c ≤ 0 then some 0
  else
    let h := fun t : ℝ => if 0 < t then √t else 0
    let h1 := h (m.len2 a b)
    let h2 := h (m.len2 a c)
    let h3 := h (m.len2 b c)
    let hm := h1 * h1 + h2 * h2 + h3 * h3
    if m.a * m.d - m.b * m.b < 0 then none
    else if 0 < hm then some (√(m.a * m.d - m.b * m.b) * area2 a b c / hm) else some 0

end Mmg.Qual
