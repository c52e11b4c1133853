/-
Intersection and interpolation of the anisotropic metrics of the plane.

MMG5_intersecmet22 (/repo/src/common/mettools.c 814-912), MMG5_interpmet22 (/repo/src/mmg2d/intmet_2d.c 54-205),
MMG2D_intmet_iso and MMG2D_intmet_ani (/repo/src/mmg2d/intmet_2d.c 36-51, 209-235), MMG5_eigenv2d with symmat = 0
(/repo/src/common/eigenv.c 780-846) and MMG5_eigensym (/repo/src/common/eigenv.c 973-1040).

Simplifications: doubles are real numbers and sqrt is exact (a division by 0 gives 0, which the theorems show never
happens for metrics); MMG5_EPS and MG_EIGENV_EPS13 are the parameters `eps` and `e13`; the warnings and the asserts
(which vanish in release mode) are left out; a return value 0 is `none`.
-/
import Mathlib.Analysis.Real.Sqrt

namespace Mmg.Met2

noncomputable section

/-- A symmetric 2x2 matrix stored as m[0], m[1], m[2] (mettools.c 814, arguments m, n, mr). -/
@[ext] structure Sym where
  a : ℝ
  b : ℝ
  c : ℝ

/-- A vector vp[i][0], vp[i][1]. -/
@[ext] structure V2 where
  x : ℝ
  y : ℝ

/-- A general 2x2 matrix imn[0..3], row by row (mettools.c 833-836). -/
structure Mat where
  a : ℝ
  b : ℝ
  c : ℝ
  d : ℝ

/-- imn = M^{-1} N (mettools.c 823-836, intmet_2d.c 60-74). -/
def invMul (m n : Sym) : Mat where
  a := 1 / (m.a * m.c - m.b * m.b) * (m.c * n.a - m.b * n.b)
  b := 1 / (m.a * m.c - m.b * m.b) * (m.c * n.b - m.b * n.c)
  c := 1 / (m.a * m.c - m.b * m.b) * (-m.b * n.a + m.a * n.b)
  d := 1 / (m.a * m.c - m.b * m.b) * (-m.b * n.b + m.a * n.c)

/-- sqDelta (eigenv.c 789-790, intmet_2d.c 75-76). -/
def sqDelta (A : Mat) : ℝ := Real.sqrt |(A.a - A.d) * (A.a - A.d) + 4 * A.b * A.c|

/-- lambda[0] (eigenv.c 793, intmet_2d.c 79). -/
def lam0 (A : Mat) : ℝ := 1 / 2 * (A.a + A.d - sqDelta A)

/-- lambda[1] (eigenv.c 812, intmet_2d.c 138). -/
def lam1 (A : Mat) : ℝ := 1 / 2 * (A.a + A.d + sqDelta A)

/-- vnorm (eigenv.c 817). -/
def nrm (v : V2) : ℝ := Real.sqrt (v.x * v.x + v.y * v.y)

/-- The division by vnorm (eigenv.c 825-827). -/
def unit (v : V2) : V2 := ⟨v.x * (1 / nrm v), v.y * (1 / nrm v)⟩

/-- The eigenvector of an eigenvalue of imn (eigenv.c 815-827 and 829-841, intmet_2d.c 141-168). -/
def eigvec (eps : ℝ) (A : Mat) (l : ℝ) : V2 :=
  if nrm ⟨A.b, l - A.a⟩ < eps then unit ⟨l - A.d, A.c⟩ else unit ⟨A.b, l - A.a⟩

/-- max |m[i]| of the matrix, 1 if it is too small (eigenv.c 973-1040, MMG5_eigensym). -/
def maxm (e13 : ℝ) (m : Sym) : ℝ :=
  if max (max |m.a| |m.b|) |m.c| < e13 then 1 else max (max |m.a| |m.b|) |m.c|

/-- Eigenvalues and eigenvectors of a symmetric matrix (eigenv.c 973-1040, MMG5_eigensym). -/
def eigensym (eps e13 : ℝ) (m : Sym) : (ℝ × ℝ) × (V2 × V2) :=
  let k := maxm e13 m
  let a11 := m.a * (1 / k)
  let a12 := m.b * (1 / k)
  let a22 := m.c * (1 / k)
  let sq := Real.sqrt ((a11 - a22) * (a11 - a22) + 4 * a12 * a12)
  let l0 := 1 / 2 * (a11 + a22 - sq)
  if sq < eps then
    ((l0 * k, l0 * k), (⟨1, 0⟩, ⟨0, 1⟩))
  else
    let v0 := if nrm ⟨a12, l0 - a11⟩ < eps then unit ⟨l0 - a22, a12⟩ else unit ⟨a12, l0 - a11⟩
    let v1 : V2 := ⟨-v0.y, v0.x⟩
    let l1 := a11 * v1.x * v1.x + 2 * a12 * v1.x * v1.y + a22 * v1.y * v1.y
    ((l0 * k, l1 * k), (v0, v1))

/-- m[0]*vp[i][0]*vp[i][0] + 2.0*m[1]*vp[i][0]*vp[i][1] + m[2]*vp[i][1]*vp[i][1] (mettools.c 883-886). -/
def diagVal (m : Sym) (v : V2) : ℝ := m.a * v.x * v.x + 2 * m.b * v.x * v.y + m.c * v.y * v.y

/-- P diag(d0,d1) tP (mettools.c 870-872, intmet_2d.c 125-127). -/
def recompose (d0 d1 : ℝ) (v0 v1 : V2) : Sym where
  a := d0 * v0.x * v0.x + d1 * v1.x * v1.x
  b := d0 * v0.x * v0.y + d1 * v1.x * v1.y
  c := d0 * v0.y * v0.y + d1 * v1.y * v1.y

/-- tP^-1 diag(d0,d1) P^-1, unless P is not invertible (mettools.c 895-908, intmet_2d.c 188-201). -/
def recomposeInv (eps d0 d1 : ℝ) (v0 v1 : V2) : Option Sym :=
  let det := v0.x * v1.y - v0.y * v1.x
  if |det| < eps then none else
    let i0 := v1.y * (1 / det)
    let i1 := -v1.x * (1 / det)
    let i2 := -v0.y * (1 / det)
    let i3 := v0.x * (1 / det)
    some ⟨d0 * i0 * i0 + d1 * i2 * i2, d0 * i0 * i1 + d1 * i2 * i3, d0 * i1 * i1 + d1 * i3 * i3⟩

/-- MMG5_intersecmet22 (mettools.c 814-912); `hmin`, `hmax` are mesh->info.hmin and hmax. -/
def inter22 (eps e13 hmin hmax : ℝ) (m n : Sym) : Option Sym :=
  let isqhmin := 1 / (hmin * hmin)
  let isqhmax := 1 / (hmax * hmax)
  if |m.a * m.c - m.b * m.b| < eps * eps then none else
  let A := invMul m n
  if lam0 A < 0 then none else
  if sqDelta A < eps then
    let r := if |m.b| < eps then ((m.a, m.c), ((⟨1, 0⟩ : V2), (⟨0, 1⟩ : V2))) else eigensym eps e13 m
    let d0 := min isqhmin (max isqhmax (max r.1.1 (lam0 A * r.1.1)))
    let d1 := min isqhmin (max isqhmax (max r.1.2 (lam0 A * r.1.2)))
    some (recompose d0 d1 r.2.1 r.2.2)
  else
    let v0 := eigvec eps A (lam0 A)
    let v1 := eigvec eps A (lam1 A)
    let d0 := min isqhmin (max (max (diagVal m v0) (diagVal n v0)) isqhmax)
    let d1 := min isqhmin (max (max (diagVal m v1) (diagVal n v1)) isqhmax)
    recomposeInv eps d0 d1 v0 v1

/-- Interpolation of the sizes along a direction, the values of the two metrics being dm and dn
(intmet_2d.c 110-116, 176-180). -/
def mix (eps s dm dn : ℝ) : ℝ :=
  let dd := dn * dm
  let den := (1 - s) * (1 - s) * dn + s * s * dm + 2 * s * (1 - s) * Real.sqrt dd
  if den < eps then (1 - s) * dm + s * dn else dd / den

/-- MMG5_interpmet22 (intmet_2d.c 54-205). -/
def interp22 (eps e13 : ℝ) (m n : Sym) (s : ℝ) : Option Sym :=
  if |m.a * m.c - m.b * m.b| < eps * eps then none else
  let A := invMul m n
  if lam0 A < 0 then none else
  if sqDelta A < eps then
    let r := if |m.b| ≤ eps ∨ |n.b| ≤ eps then ((m.a, m.c), ((⟨1, 0⟩ : V2), (⟨0, 1⟩ : V2))) else eigensym eps e13 m
    some (recompose (mix eps s r.1.1 (lam0 A * r.1.1)) (mix eps s r.1.2 (lam0 A * r.1.2)) r.2.1 r.2.2)
  else
    let v0 := eigvec eps A (lam0 A)
    let v1 := eigvec eps A (lam1 A)
    recomposeInv eps (mix eps s (diagVal m v0) (diagVal n v0)) (mix eps s (diagVal m v1) (diagVal n v1)) v0 v1

/-- MMG2D_intmet_ani (intmet_2d.c 209-235): the metric given to a point created on an edge. -/
def intmetAni (eps e13 : ℝ) (m n : Sym) (s : ℝ) : Sym :=
  match interp22 eps e13 m n s with
  | some r => r
  | none => ⟨(1 - s) * m.a + s * n.a, (1 - s) * m.b + s * n.b, (1 - s) * m.c + s * n.c⟩

/-- MMG2D_intmet_iso (intmet_2d.c 36-51): the size given to a point created on an edge. -/
def intmetIso (h1 h2 s : ℝ) : ℝ := (1 - s) * h1 + s * h2

end

end Mmg.Met2
