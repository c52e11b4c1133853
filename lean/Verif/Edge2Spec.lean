/-
  Vocabulary of C83 (analysis of the edges of a 2D mesh): what a well-formed mesh is, the tag every side has to get, the
  sub-domains.  Nothing here depends on the traversal.
-/
import Verif.Edge2Model
import Mathlib.Logic.Relation

namespace Mmg.Edge2
open Mmg.Orient (mgREF mgGEO mgREQ mgBDY mgNOSURF mgPARBDY has special m3)

/-- Triangle `k` exists. -/
def Ex (E : Env) (k : Nat) : Prop := 1 ≤ k ∧ k ≤ E.nt ∧ E.v k 0 ≠ 0

/-- The triangle on the other side of side `i`, and the place of the common edge in it. -/
def nb (E : Env) (k : Nat) (i : Fin 3) : Nat := E.adj k i / 3
def np (E : Env) (k : Nat) (i : Fin 3) : Fin 3 := m3 (E.adj k i)

/-- The mesh given to the analysis: the links lead to another existing triangle, and back (what `MMG2D_hashTria` gives,
see C06). -/
structure Good (E : Env) : Prop where
  some : 1 ≤ E.nt
  link : ∀ k i, Ex E k → E.adj k i ≠ 0 → Ex E (nb E k i) ∧ nb E k i ≠ k ∧ E.adj (nb E k i) (np E k i) = 3 * k + i.val

/-- The edge is inside a sub-domain and the mode does not keep such edges: its marks are dropped. -/
def Inner (E : Env) (k : Nat) (i : Fin 3) : Prop :=
  E.adj k i ≠ 0 ∧ E.opnbdy = false ∧ E.ref k = E.ref (nb E k i)

instance (E k i) : Decidable (Inner E k i) := by unfold Inner; infer_instance

/-- What the two sides of the edge say before the analysis, the marks of inner edges being dropped. -/
def said (E : Env) (tag : Nat → Fin 3 → BitVec 16) (k : Nat) (i : Fin 3) : BitVec 16 :=
  if E.adj k i = 0 then tag k i
  else if Inner E k i then (tag k i ||| tag (nb E k i) (np E k i)) &&& ~~~(mgREF ||| mgGEO ||| mgBDY)
  else tag k i ||| tag (nb E k i) (np E k i)

/-- The edge separates: two different references (up to the sign), or, in the mode that keeps the open boundaries, any
edge with a tag. -/
def Interface (E : Env) (tag : Nat → Fin 3 → BitVec 16) (k : Nat) (i : Fin 3) : Prop :=
  E.adj k i ≠ 0 ∧ ((E.ref (nb E k i)).natAbs ≠ (E.ref k).natAbs ∨ (E.opnbdy = true ∧ said E tag k i ≠ 0#16))

instance (E tag k i) : Decidable (Interface E tag k i) := by unfold Interface; infer_instance

/-- Edges that are not to be touched although the user has not required them: all boundary edges with the option
`-nosurf`, and the outer edges shared with another process. -/
def Frozen (E : Env) (tag : Nat → Fin 3 → BitVec 16) (k : Nat) (i : Fin 3) : Prop :=
  has (said E tag k i) mgREQ = false ∧
  (E.nosurf = true ∨ (E.adj k i = 0 ∧ has (tag k i) mgPARBDY = true))

instance (E tag k i) : Decidable (Frozen E tag k i) := by unfold Frozen; infer_instance

/-- The tag of a side after the analysis: outer edges are ridges of the boundary, interfaces reference edges of the
boundary, the other ones keep what was said. -/
def due (E : Env) (tag : Nat → Fin 3 → BitVec 16) (k : Nat) (i : Fin 3) : BitVec 16 :=
  said E tag k i |||
  (if E.adj k i = 0 then mgGEO ||| mgBDY else if Interface E tag k i then mgREF ||| mgBDY else 0#16) |||
  (if (E.adj k i = 0 ∨ Interface E tag k i) ∧ Frozen E tag k i then mgREQ ||| mgNOSURF else 0#16)

/-- The traversal goes through the edge. -/
def Cross (E : Env) (tag : Nat → Fin 3 → BitVec 16) (k : Nat) (i : Fin 3) : Prop :=
  E.adj k i ≠ 0 ∧ ¬ Interface E tag k i

/-- Neighbours inside a sub-domain; triangles of the same sub-domain. -/
def Nb (E : Env) (tag : Nat → Fin 3 → BitVec 16) (k k' : Nat) : Prop :=
  Ex E k ∧ ∃ i, Cross E tag k i ∧ nb E k i = k'
def Conn (E : Env) (tag : Nat → Fin 3 → BitVec 16) : Nat → Nat → Prop := Relation.ReflTransGen (Nb E tag)

/-- `p` is one of the two vertices of side `i` of triangle `k`. -/
def On (E : Env) (k : Nat) (i : Fin 3) (p : Nat) : Prop := p = E.v k (i + 1) ∨ p = E.v k (i + 2)

/-- The bit `b` of the tags of the vertices: what they had, and what the special edges they belong to have. -/
def Marked (E : Env) (tag : Nat → Fin 3 → BitVec 16) (pt pt' : Nat → BitVec 16) (b : BitVec 16) : Prop :=
  ∀ p, has (pt' p) b = true ↔ (has (pt p) b = true ∨
    ∃ k i, Ex E k ∧ On E k i p ∧ special (due E tag k i) = true ∧ has (due E tag k i) b = true)

/-- The numbers `1 .. n` of the triangles are the sub-domains. -/
structure Domains (E : Env) (tag : Nat → Fin 3 → BitVec 16) (cc : Nat → Nat) (n : Nat) : Prop where
  range : ∀ k, Ex E k → 1 ≤ cc k ∧ cc k ≤ n
  same : ∀ k k', Ex E k → Ex E k' → (cc k = cc k' ↔ Conn E tag k k')
  all : Ex E 1 → ∀ c, 1 ≤ c → c ≤ n → ∃ k, Ex E k ∧ cc k = c

end Mmg.Edge2
