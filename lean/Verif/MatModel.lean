/-
Model of the multi-material table and of its inverse: MMG5_Set_multiMat (common/libtools.c:104-174) and
MMG5_InvMat_*, MMG5_MultiMat_init, MMG5_getStartRef, MMG5_isSplit, MMG5_isNotSplit, MMG5_isLevelSet
(common/mmg2.c:40-492).

Simplifications: references are unbounded integers (in C `MMG5_int`, converted to `int` in the key), the
`int8_t` field `dospl` is an unbounded integer, allocation succeeds, messages are dropped. A read or write
of the lookup table outside its bounds, or of `mesh->info.mat` outside the entries that were set, is the
distinct outcome `none`.
-/
namespace Mmg.Mat

/-- `MMG5_Mat`, common/libmmgtypes.h:502-505. -/
structure Mat where
  dospl : Int
  ref : Int
  rin : Int
  rex : Int
  deriving DecidableEq

/-- `MMG5_InvMat`, common/libmmgtypes.h:512-516. -/
structure InvMat where
  offset : Int
  size : Int
  lookup : Int → Int

/-- `MG_PLUS`, `MG_MINUS`, common/libmmgtypes.h:77-82. -/
def MG_PLUS : Int := 2
def MG_MINUS : Int := 3

/-- `MMG5_InvMat_code`, mmg2.c:58-60. -/
def code (k : Nat) (attr : Int) : Int := 4 * ((k : Int) + 1) + attr

/-- Read `pim->lookup[ref - offset]`. -/
def InvMat.read (im : InvMat) (ref : Int) : Option Int :=
  if 0 ≤ ref - im.offset ∧ ref - im.offset < im.size then some (im.lookup (ref - im.offset)) else none

/-- Write `pim->lookup[ref - offset] = c`. -/
def InvMat.write (im : InvMat) (ref c : Int) : Option InvMat :=
  if 0 ≤ ref - im.offset ∧ ref - im.offset < im.size then
    some { im with lookup := fun x => if x = ref - im.offset then c else im.lookup x } else none

/-- `MMG5_InvMat_getIndex`, mmg2.c:69-73. -/
def getIndex (im : InvMat) (ref : Int) : Option Int := (im.read ref).map (fun c => c.tdiv 4 - 1)

/-- `MMG5_InvMat_getAttrib`, mmg2.c:84-89. -/
def getAttrib (im : InvMat) (ref : Int) : Option Int := (im.read ref).map (fun c => c.tmod 4)

/-- `MMG5_InvMat_set`, mmg2.c:129-165. -/
def InvMat.set (im : InvMat) (k : Nat) (pm : Mat) : Option InvMat :=
  match im.write pm.ref (code k pm.dospl) with
  | none => none
  | some im =>
    if pm.dospl ≠ 0 then
      match im.write pm.rin (code k MG_MINUS) with
      | none => none
      | some im => im.write pm.rex (code k MG_PLUS)
    else some im

/-- Loop of mmg2.c:390-393, rows `k`, `k+1`, ... -/
def fill : Nat → List Mat → InvMat → Option InvMat
  | _, [], im => some im
  | k, m :: t, im =>
    match im.set k m with
    | none => none
    | some im => fill (k + 1) t im

/-- The references scanned at mmg2.c:350-379: table, then mesh entities (`refs`). -/
def scanned (mats : List Mat) (refs : List Int) : List Int :=
  mats.flatMap (fun m => if m.dospl = 0 then [m.ref] else [m.ref, m.rin, m.rex]) ++ refs

/-- `MMG5_MultiMat_init`, mmg2.c:326-399, for `nmati = nmat > 0`; `refs` are the references of the tetrahedra,
triangles and edges present in the mesh at the time of the call; `intmax` is `MMG5_INTMAX`. -/
def init (intmax : Int) (mats : List Mat) (refs : List Int) : Option InvMat :=
  let l := scanned mats refs
  let refmax := l.foldl max 0
  let refmin := l.foldl min intmax
  fill 0 mats { offset := refmin, size := refmax - refmin + 1, lookup := fun _ => 0 }

/-- `mesh->info.mat[k]` (entries beyond the table are undefined). -/
def matAt (mats : List Mat) (k : Int) : Option Mat := if 0 ≤ k then mats[k.toNat]? else none

/-- `MMG5_InvMat_getParent` through `MMG5_getStartRef`, mmg2.c:177-230, with `nmat > 0`: `some none` when 0 is
returned. -/
def getStartRef (mats : List Mat) (im : InvMat) (ref : Int) : Option (Option Int) :=
  match getIndex im ref with
  | none => none
  | some k => if k = -1 then some none else (matAt mats k).map (fun m => some m.ref)

/-- `MMG5_isSplit`, mmg2.c:412-438, with `nmat > 0`: `some none` when 0 is returned, otherwise
`(*refint, *refext)`. -/
def isSplit (mats : List Mat) (im : InvMat) (ref : Int) : Option (Option (Int × Int)) :=
  match getIndex im ref with
  | none => none
  | some k => (matAt mats k).map (fun m => if m.dospl = 0 then none else some (m.rin, m.rex))

/-- `MMG5_isNotSplit`, mmg2.c:448-461, with `nmat > 0`. -/
def isNotSplit (im : InvMat) (ref : Int) : Option Bool :=
  (getAttrib im ref).map (fun a => if a = 0 then false else true)

/-- `MMG5_isLevelSet`, mmg2.c:472-492, with `nmat > 0`. -/
def isLevelSet (im : InvMat) (ref0 ref1 : Int) : Option Bool :=
  match getAttrib im ref0, getAttrib im ref1 with
  | some a, some b => some (if a + b = MG_MINUS + MG_PLUS then true else false)
  | _, _ => none

/-- The single-material branches (`nmat = 0`): mmg2.c:217-220, 418-422, 452, 486-490. -/
def getStartRef0 : Int := 0
def isSplit0 : Int × Int := (MG_MINUS, MG_PLUS)
def isNotSplit0 : Bool := false
def isLevelSet0 (ref0 ref1 : Int) : Bool :=
  if (ref0 = MG_MINUS ∧ ref1 = MG_PLUS) ∨ (ref1 = MG_MINUS ∧ ref0 = MG_PLUS) then true else false

/-! ### The API call -/

/-- The part of `mesh->info` used here: `nmat`, the rows set so far (`nmati` is their number) and the inverse
table (`none` as long as it does not exist: `lookup` is a null pointer). -/
structure Info where
  nmat : Nat
  mats : List Mat
  inv : Option InvMat

/-- First loop of `MMG5_Set_multiMat`, libtools.c:126-147: replacement of an existing row. -/
def updRow (ref split rin rex : Int) : List Mat → Option (List Mat)
  | [] => none
  | m :: t =>
    if m.ref = ref then
      some ({ m with dospl := split, rin := if split ≠ 0 then rin else m.ref, rex := if split ≠ 0 then rex else m.ref } :: t)
    else (updRow ref split rin rex t).map (fun t => m :: t)

/-- `MMG5_Set_multiMat`, libtools.c:104-174; `refs` as in `init`. The boolean is the returned value; `none` for a
write outside the lookup table. -/
def setMat (intmax : Int) (refs : List Int) (I : Info) (ref split rin rex : Int) : Option (Info × Bool) :=
  if I.nmat = 0 then some (I, false)
  else if I.mats.length ≥ I.nmat then some (I, false)
  else if ref < 0 then some (I, false)
  else
    match updRow ref split rin rex I.mats with
    | some l => some ({ I with mats := l }, true)
    | none =>
      if split ≠ 1 ∧ split ≠ 0 then some (I, false)
      else
        let mats := I.mats ++ [⟨split, ref, rin, rex⟩]
        if mats.length = I.nmat then (init intmax mats refs).map (fun im => ({ I with mats := mats, inv := some im }, true))
        else some ({ I with mats := mats }, true)

/-! ### Specification -/

/-- Reference `r` belongs to row `m` of the table. -/
def Mat.Has (m : Mat) (r : Int) : Prop := r = m.ref ∨ (m.dospl ≠ 0 ∧ (r = m.rin ∨ r = m.rex))

/-- The user's table is unambiguous: split attributes are 0 or 1, the two children of a row differ and no
reference belongs to two rows. -/
structure Unambiguous (mats : List Mat) : Prop where
  attr : ∀ m ∈ mats, m.dospl = 0 ∨ m.dospl = 1
  child : ∀ m ∈ mats, m.dospl ≠ 0 → m.rin ≠ m.rex
  rows : mats.Pairwise (fun m m' => ∀ r, m.Has r → ¬ m'.Has r)

end Mmg.Mat
