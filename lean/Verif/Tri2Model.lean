/-
Model of the local 2D operators: MMG2D_split1b, MMG2D_splitbar, MMG2D_swapar.

Simplifications, valid for the whole file:
* an adjacency word `3*k+i` of the C table is represented by the pair `(k,i)` and the word 0 by
  `none` (the encoding is a bijection for k > 0, i < 3);
* local indices are elements of `Fin 3`, so `MMG5_inxt2[i]` is `i+1` and `MMG5_iprv2[i]` is `i+2`;
* the slots returned by MMG2D_newElt are arguments (property C09 says which slots it can return);
* the work fields `flag`, `base`, `qual`, `cc` of triangles are not represented.
-/
import Mathlib.Data.Fin.Basic
import Mathlib.Logic.Function.Basic

namespace Mmg.Tri2

/-- Half edge: triangle and local edge index (edge `i` is opposite to vertex `i`). -/
abbrev HE := Nat × Fin 3

/-- `MMG5_Tria`, common/libmmgtypes.h (fields v, tag, edg, ref). -/
structure Tri where
  v : Fin 3 → Nat
  tag : Fin 3 → Nat
  edg : Fin 3 → Int
  ref : Int

/-- `mesh->tria` and `mesh->adja`. -/
structure Mesh where
  tri : Nat → Tri
  adj : HE → Option HE

/-- `MG_EOK(pt)`, common/mmgcommon_private.h: `v[0] > 0`. -/
def Mesh.live (M : Mesh) (k : Nat) : Prop := (M.tri k).v 0 ≠ 0

/-- Write of one triangle. -/
def Mesh.setTri (M : Mesh) (k : Nat) (t : Tri) : Mesh := { M with tri := fun x => if x = k then t else M.tri x }

/-- Write of one adjacency word. -/
def Mesh.setAdj (M : Mesh) (h : HE) (a : Option HE) : Mesh :=
  { M with adj := fun x => if x = h then a else M.adj x }

/-- `if ( mel ) mesh->adja[3*(mel-1)+1+m] = a`. -/
def Mesh.backLink (M : Mesh) (h : Option HE) (a : HE) : Mesh :=
  match h with
  | none => M
  | some h => M.setAdj h (some a)

/-- The two memcpy of split_2d.c:270-271: triangle `k` and its adjacency row are copied to `iel`. -/
def Mesh.copyTri (M : Mesh) (k iel : Nat) : Mesh :=
  { tri := fun x => if x = iel then M.tri k else M.tri x
    adj := fun h => if h.1 = iel then M.adj (k, h.2) else M.adj h }

/-- `pt->v[a] = ip; pt->tag[b] = MG_NOTAG; pt->edg[b] = 0`. -/
def Tri.cut (t : Tri) (a b : Fin 3) (ip : Nat) : Tri :=
  { t with
    v := fun x => if x = a then ip else t.v x
    tag := fun x => if x = b then 0 else t.tag x
    edg := fun x => if x = b then 0 else t.edg x }

/-- Half of `MMG2D_split1b` on one side of the edge: triangle `k` is cut into `k` (which receives `ip`
at place `a`) and `iel` (which receives it at place `b`); `{a,b}` = the two ends of the edge.
split_2d.c:269-291 with (a,b) = (i2,i1) and 305-327 with (a,b) = (j1,j2). -/
def cutSide (M : Mesh) (k iel : Nat) (a b : Fin 3) (ip : Nat) : Mesh :=
  let M := M.copyTri k iel
  let M := M.setTri k ((M.tri k).cut a b ip)
  let M := M.setTri iel ((M.tri iel).cut b a ip)
  let mel := M.adj (k, b)
  let M := M.setAdj (k, b) (some (iel, a))
  let M := M.setAdj (iel, a) (some (k, b))
  M.backLink mel (iel, b)

/-- `MMG2D_split1b`, split_2d.c:244-332. `iel`, `kel`: slots returned by MMG2D_newElt. -/
def split1b (M : Mesh) (k : Nat) (i : Fin 3) (ip iel kel : Nat) : Mesh :=
  let jel := M.adj (k, i)
  let M := cutSide M k iel (i + 2) (i + 1) ip
  match jel with
  | none => M
  | some (jel, j) =>
    let M := cutSide M jel kel (j + 1) (j + 2) ip
    let M := M.setAdj (iel, i) (some (kel, j))
    M.setAdj (kel, j) (some (iel, i))

/-- `pt->v[a] = ip`. -/
def Tri.setV (t : Tri) (a : Fin 3) (ip : Nat) : Tri := { t with v := fun x => if x = a then ip else t.v x }

/-- `pt->tag[a] = g; pt->edg[a] = e`. -/
def Tri.setE (t : Tri) (a : Fin 3) (g : Nat) (e : Int) : Tri :=
  { t with
    tag := fun x => if x = a then g else t.tag x
    edg := fun x => if x = a then e else t.edg x }

/-- swapar_2d.c:247-260: the writes through `pt` and `pt1` (two different triangles). -/
def swapTris (pt pt1 : Tri) (i j : Fin 3) : Tri × Tri :=
  let pt := pt.setV (i + 2) (pt1.v j)
  let pt1 := pt1.setV (j + 2) (pt.v i)
  let pt := pt.setE i (pt1.tag (j + 1)) (pt1.edg (j + 1))
  let pt1 := pt1.setE j (pt.tag (i + 1)) (pt.edg (i + 1))
  let pt := pt.setE (i + 1) 0 0
  let pt1 := pt1.setE (j + 1) 0 0
  (pt, pt1)

/-- swapar_2d.c:262-271: the adjacency writes; `k11`, `k21` are the words read before. -/
def swapLinks (M : Mesh) (k : Nat) (i : Fin 3) (adj : Nat) (j : Fin 3) (k11 k21 : Option HE) : Mesh :=
  let M := M.setAdj (k, i) k21
  let M := M.backLink k21 (k, i)
  let M := M.setAdj (k, i + 1) (some (adj, j + 1))
  let M := M.setAdj (adj, j + 1) (some (k, i + 1))
  let M := M.backLink k11 (adj, j)
  M.setAdj (adj, j) k11

/-- `MMG2D_swapar`, swapar_2d.c:221-274. `none`: the assertion `adja[i]` fails; `some none`: the
function returns 0 because of the tag test (`blocked`: `MG_EDG(tag) || MG_SIN(tag)`). -/
def swapar (blocked : Nat → Bool) (M : Mesh) (k : Nat) (i : Fin 3) : Option (Option Mesh) :=
  if blocked ((M.tri k).tag i) then some none
  else
    match M.adj (k, i) with
    | none => none
    | some (adj, j) =>
      let p := swapTris (M.tri k) (M.tri adj) i j
      some (some (swapLinks ((M.setTri k p.1).setTri adj p.2) k i adj j (M.adj (k, i + 1)) (M.adj (adj, j + 1))))

/-- `MMG2D_splitbar`, split_2d.c:721-833, after the three area tests. -/
def splitbar (M : Mesh) (k ip iel1 iel2 : Nat) : Mesh :=
  let jel0 := M.adj (k, 0)
  let jel2 := M.adj (k, 2)
  let M := M.copyTri k iel1
  let M := M.copyTri k iel2
  let M := M.setTri k ((M.tri k).cut 1 1 ip)
  let M := M.setTri iel1 ((M.tri iel1).cut 2 2 ip)
  let M := M.setTri iel2 ((M.tri iel2).cut 0 0 ip)
  let M := M.setAdj (iel1, 2) jel2
  let M := M.backLink jel2 (iel1, 2)
  let M := M.setAdj (iel2, 0) jel0
  let M := M.backLink jel0 (iel2, 0)
  let M := M.setAdj (k, 0) (some (iel2, 1))
  let M := M.setAdj (iel2, 1) (some (k, 0))
  let M := M.setAdj (k, 2) (some (iel1, 1))
  let M := M.setAdj (iel1, 1) (some (k, 2))
  let M := M.setAdj (iel1, 0) (some (iel2, 2))
  M.setAdj (iel2, 2) (some (iel1, 0))

/-! ### Specification -/

/-- First and second end of the directed edge `i` of triangle `k`. -/
def Mesh.org (M : Mesh) (h : HE) : Nat := (M.tri h.1).v (h.2 + 1)
def Mesh.dst (M : Mesh) (h : HE) : Nat := (M.tri h.1).v (h.2 + 2)

/-- Conforming triangulation: valid triangles have three different positive vertices; neighbour
links join valid triangles, are symmetric, and join the same edge in opposite directions. -/
structure Valid (M : Mesh) : Prop where
  pos : ∀ k, M.live k → k ≠ 0 ∧ ∀ i, (M.tri k).v i ≠ 0
  distinct : ∀ k, M.live k → ∀ i j, i ≠ j → (M.tri k).v i ≠ (M.tri k).v j
  link : ∀ h h', M.live h.1 → M.adj h = some h' →
    M.live h'.1 ∧ M.adj h' = some h ∧ M.org h' = M.dst h ∧ M.dst h' = M.org h

end Mmg.Tri2
