/-
Model of the 2D edge collapse: MMG2D_colver, MMG2D_colver3, MMG2D_colver2 (mmg2d/colver_2d.c), on the mesh
of Tri2Model (same simplifications). The ball of the removed vertex is the list returned by `boulet`.
The fields `base` and the point array are not represented.
-/
import Verif.BallModel

namespace Mmg.Tri2

/-- `for (k=1; k<ilist-1+open; k++) { pt1->v[jj] = ip2; }`, colver_2d.c:290-296. -/
def Mesh.moveV (M : Mesh) (l : List HE) (ip2 : Nat) : Mesh :=
  l.foldl (fun M c => M.setTri c.1 ((M.tri c.1).setV c.2 ip2)) M

/-- colver_2d.c:298-317 (and 329-343): edge `e'` of a triangle that stays takes the place of edge `e` of the
triangle that disappears: union of the tags, maximum of the references, links and attributes on the other
side. -/
def mergeEdge (M : Mesh) (e e' : HE) : Mesh :=
  let tg := (M.tri e'.1).tag e'.2 ||| (M.tri e.1).tag e.2
  let ed := max ((M.tri e'.1).edg e'.2) ((M.tri e.1).edg e.2)
  let M1 := M.setTri e'.1 ((M.tri e'.1).setE e'.2 tg ed)
  match M.adj e with
  | none => M1.setAdj e' none
  | some o =>
    let M2 := (M1.setAdj o (some e')).setAdj e' (some o)
    M2.setTri o.1 ((M2.tri o.1).setE o.2 ((M2.tri o.1).tag o.2 ||| tg) (max ed ((M2.tri o.1).edg o.2)))

/-- `MMG2D_delElt`, zaldy_2d.c:107-132 (effect on the triangle and its adjacency row; the
link of the free chain stored in `v[2]` belongs to the slot pool of C09 and is left 0 here). -/
def Mesh.delTri (M : Mesh) (k : Nat) : Mesh :=
  { tri := fun x => if x = k then ⟨fun _ => 0, fun _ => 0, fun _ => 0, 0⟩ else M.tri x
    adj := fun h => if h.1 = k then none else M.adj h }

/-- `MMG2D_colver`, colver_2d.c:272-352. `l` is the content of `list`; `none`: fewer than two entries, or two
entries and a closed ball (never called so, mmg2d1.c:490-503). -/
def colver (M : Mesh) (l : List HE) : Option Mesh :=
  match l with
  | c0 :: c1 :: t =>
    let ip2 := (M.tri c0.1).v (c0.2 + 1)
    match M.adj (c0.1, c0.2 + 2) with
    | none =>
      let M1 := M.moveV (c1 :: t) ip2
      let M2 := mergeEdge M1 (c0.1, c0.2) (c1.1, c1.2 + 2)
      some (M2.delTri c0.1)
    | some _ =>
      match (c1 :: t).getLast?, (c1 :: t).dropLast.getLast? with
      | some cl, some cm =>
        let M1 := M.moveV (c1 :: t).dropLast ip2
        let M2 := mergeEdge M1 (c0.1, c0.2) (c1.1, c1.2 + 2)
        let M3 := mergeEdge M2 (cl.1, cl.2) (cm.1, cm.2 + 1)
        some ((M3.delTri c0.1).delTri cl.1)
      | _, _ => none
  | _ => none

/-- colver_2d.c:392-398: `if ( mel ) { pt->tag[m] = pt1->tag[j]; pt->edg[m] = ..; adja = 3*jel+j; }`. -/
def copyAttr (M : Mesh) (o : Option HE) (e : HE) : Mesh :=
  match o with
  | none => M
  | some o => (M.setTri o.1 ((M.tri o.1).setE o.2 ((M.tri e.1).tag e.2) ((M.tri e.1).edg e.2))).setAdj o (some e)

/-- `MMG2D_colver3`, colver_2d.c:356-416, for a list of three entries. -/
def colver3 (M : Mesh) (a b c : HE) : Mesh :=
  let pt := M.tri a.1
  let pt1 := M.tri b.1
  let pt2 := M.tri c.1
  let t := pt1.setV b.2 (pt.v (a.2 + 1))
  let t := t.setE (b.2 + 1) (pt1.tag (b.2 + 1) ||| pt2.tag c.2) (max (pt1.edg (b.2 + 1)) (pt2.edg c.2))
  let t := t.setE (b.2 + 2) (pt1.tag (b.2 + 2) ||| pt.tag a.2) (max (pt1.edg (b.2 + 2)) (pt.edg a.2))
  let M := M.setTri b.1 t
  let o1 := M.adj c
  let M := M.setAdj (b.1, b.2 + 1) o1
  let o2 := M.adj a
  let M := M.setAdj (b.1, b.2 + 2) o2
  let M := copyAttr M o2 (b.1, b.2 + 2)
  let M := copyAttr M o1 (b.1, b.2 + 1)
  (M.delTri a.1).delTri c.1

/-- `MMG2D_colver2`, colver_2d.c:420-460, for a list of two entries. -/
def colver2 (M : Mesh) (a b : HE) : Mesh :=
  let pt := M.tri a.1
  let t := (M.tri b.1).setV b.2 (pt.v (a.2 + 1))
  let t := t.setE (b.2 + 2) (t.tag (b.2 + 2) ||| pt.tag a.2) (pt.edg a.2)
  let M := M.setTri b.1 t
  let o := M.adj a
  let M := M.setAdj (b.1, b.2 + 2) o
  let M := M.backLink o (b.1, b.2 + 2)
  M.delTri a.1

/-! ### Specification -/

/-- Both sides of an edge have the same attributes. -/
def Mesh.TagSym (M : Mesh) : Prop :=
  ∀ h h', M.live h.1 → M.adj h = some h' →
    (M.tri h'.1).tag h'.2 = (M.tri h.1).tag h.2 ∧ (M.tri h'.1).edg h'.2 = (M.tri h.1).edg h.2

end Mmg.Tri2
