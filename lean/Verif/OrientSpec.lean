/-
  Vocabulary of C80 (orientation of the surface): what a well-formed triangulation is, which sides are crossed, the
  connected components, and what it means to be orientable.  Nothing here depends on the traversal.
-/
import Verif.OrientModel
import Mathlib.GroupTheory.Perm.Basic
import Mathlib.Logic.Relation

namespace Mmg.Orient

/-- Triangle `k` exists. -/
def Ex (E : Env) (s : St) (k : Nat) : Prop := 1 ≤ k ∧ k ≤ E.nt ∧ s.v k 0 ≠ 0

/-- The triangle on the other side of side `i`, and the place of the common edge in it. -/
def nb (s : St) (k : Nat) (i : Fin 3) : Nat := s.adj k i / 3
def np (s : St) (k : Nat) (i : Fin 3) : Fin 3 := m3 (s.adj k i)

/-- Both triangles go along the common edge in the same direction. -/
def Same (s : St) (k : Nat) (i : Fin 3) : Prop :=
  s.v (nb s k i) (np s k i + 1) = s.v k (i + 1) ∧ s.v (nb s k i) (np s k i + 2) = s.v k (i + 2)

/-- The triangles go along the common edge in opposite directions. -/
def Opp (s : St) (k : Nat) (i : Fin 3) : Prop :=
  s.v (nb s k i) (np s k i + 1) = s.v k (i + 2) ∧ s.v (nb s k i) (np s k i + 2) = s.v k (i + 1)

/-- The links lead to another existing triangle with the same edge, and back. -/
def Linked (E : Env) (s : St) : Prop := ∀ k i, Ex E s k → s.adj k i ≠ 0 →
  Ex E s (nb s k i) ∧ nb s k i ≠ k ∧ s.adj (nb s k i) (np s k i) = 3 * k + i.val ∧ (Same s k i ∨ Opp s k i)

/-- The triangulation given to the traversal (what `MMG5_mmgHashTria` gives, see C07). -/
structure Good (E : Env) (s : St) : Prop where
  some : 1 ≤ E.nt
  pos : ∀ k, Ex E s k → ∀ i, s.v k i ≠ 0
  dist : ∀ k, Ex E s k → ∀ i j, s.v k i = s.v k j → i = j
  link : Linked E s
  sym : ∀ k i, Ex E s k → s.adj k i ≠ 0 →
    skipped (s.tag (nb s k i) (np s k i)) = skipped (s.tag k i) ∧
    has (s.tag (nb s k i) (np s k i)) mgNOM = has (s.tag k i) mgNOM
  flag : ∀ k, Ex E s k → s.flag k = 0
  base : ∀ k, Ex E s k → 0 < s.base k

/-- Side `i` of `k` is an ordinary edge between two triangles: neither open, nor non-manifold, nor left out. -/
def Cross (s : St) (k : Nat) (i : Fin 3) : Prop :=
  s.adj k i ≠ 0 ∧ skipped (s.tag k i) = false ∧ has (s.tag k i) mgNOM = false

/-- Neighbours across an ordinary edge; connected triangles. -/
def Nb (E : Env) (s : St) (k k' : Nat) : Prop := Ex E s k ∧ ∃ i, Cross s k i ∧ nb s k i = k'
def Conn (E : Env) (s : St) : Nat → Nat → Prop := Relation.ReflTransGen (Nb E s)

/-- `f` tells which triangles to turn over in order to have opposite directions along all ordinary edges. -/
def Orients (E : Env) (s : St) (f : Nat → Bool) : Prop := ∀ k i, Ex E s k → Cross s k i →
  (f (nb s k i) = f k → Opp s k i) ∧ (f (nb s k i) ≠ f k → Same s k i)

/-- The tag added to a side: open sides become non-manifold (and open boundaries in the mode that keeps them), ordinary
edges between triangles of different references (up to the sign) become reference edges. -/
def ext (E : Env) (s : St) (k : Nat) (i : Fin 3) : BitVec 16 :=
  if skipped (s.tag k i) then 0#16
  else if s.adj k i = 0 then (if E.opnbdy then mgOPNBDY ||| mgNOM else mgNOM)
  else if has (s.tag k i) mgNOM then 0#16
  else if (E.ref (nb s k i)).natAbs ≠ (E.ref k).natAbs then mgREF
  else 0#16

/-- Orientation of a renumbering of the three places: `true` if it turns the triangle over. -/
def odd (p : Equiv.Perm (Fin 3)) : Bool := p 1 != p 0 + 1

/-- `s'` describes the triangulation `s`, the triangles being renumbered by `σ`: same vertices, same neighbours, every
side keeps its edge reference and its tag up to the additions. -/
structure Renum (E : Env) (s s' : St) (σ : Nat → Equiv.Perm (Fin 3)) : Prop where
  vert : ∀ k i, Ex E s k → s'.v k i = s.v k (σ k i)
  edg : ∀ k i, Ex E s k → s'.edg k i = s.edg k (σ k i)
  tag : ∀ k i, Ex E s k → s'.tag k i = s.tag k (σ k i) ||| ext E s k (σ k i)
  open_ : ∀ k i, Ex E s k → (s'.adj k i = 0 ↔ s.adj k (σ k i) = 0)
  nb : ∀ k i, Ex E s k → s.adj k (σ k i) ≠ 0 →
    nb s' k i = nb s k (σ k i) ∧ σ (nb s' k i) (np s' k i) = np s k (σ k i)
  dead : ∀ k, ¬ Ex E s k → s'.v k = s.v k
  linked : Linked E s'

/-- The numbers given to the triangles are the connected components. -/
structure Comps (E : Env) (s s' : St) (n : Nat) : Prop where
  range : ∀ k, Ex E s k → 1 ≤ s'.flag k ∧ s'.flag k ≤ n
  same : ∀ k k', Ex E s k → Ex E s k' → (s'.flag k = s'.flag k' ↔ Conn E s k k')

/-- The bit `b` of the tag of a vertex: given by the sides it belongs to. -/
def Marked (E : Env) (s s' : St) (b : BitVec 16) : Prop := ∀ p, has (s'.ptag p) b = true ↔
  (has (s.ptag p) b = true ∨ ∃ k j, Ex E s k ∧ skipped (s.tag k j) = false ∧
    has (s.tag k j ||| ext E s k j) b = true ∧ (p = s.v k (j + 1) ∨ p = s.v k (j + 2)))

/-- `m` is the triangle of lowest number of the component of `k`. -/
def First (E : Env) (s : St) (k m : Nat) : Prop :=
  Ex E s m ∧ Conn E s k m ∧ ∀ k', Ex E s k' → Conn E s k k' → m ≤ k'

end Mmg.Orient
