/-
  C103. Removal of an edge from the edge table: `MMG5_hashPop` (mmg3d/hash_3d.c 850-898), on the table of `Verif.HashModel`.
-/
import Verif.HashModel

namespace Mmg.Hash

/-- `while ( ph->nxt ) { php = ph; ph = &item[ph->nxt]; if match ... }`, hash_3d.c 877-896: the cell before and the cell found. -/
def walkPop (x : Nat × Nat × Nat) (h : Hash) : Nat → Nat → Outcome (Option (Nat × Nat))
  | 0, _ => .ub
  | fuel + 1, p =>
    if h.max < p then .ub
    else
      let n := (h.item p).nxt
      if n ≠ 0 then
        if h.max < n then .ub
        else if cmatch false x (h.item n) then .ok (some (p, n))
        else walkPop x h fuel n
      else .ok none

/-- `MMG5_hashPop`, hash_3d.c 850-898. -/
def hashPop (h : Hash) (a b : Nat) : Outcome (Hash × Nat) :=
  let ia := Nat.min a b
  let ib := Nat.max a b
  if h.siz = 0 then .ub
  else
    let p := bucket h.siz ia ib
    if h.max < p then .ub
    else if (h.item p).a = 0 then .ok (h, 0)
    else if cmatch false (ia, ib, 0) (h.item p) then
      if (h.item p).nxt = 0 then .ok (h.put p Cell.zero, 1)
      else
        let n := (h.item p).nxt
        if h.max < n then .ub
        else .ok ({ (h.put p (h.item n)).put n { Cell.zero with nxt := h.nxt } with nxt := n }, 1)
    else
      match walkPop (ia, ib, 0) h h.fuel p with
      | .ub => .ub
      | .fail => .fail
      | .ok none => .ok (h, 0)
      | .ok (some (q, n)) =>
        if (h.item n).nxt = 0 then
          -- memset(ph); ph->nxt = hash->nxt; hash->nxt = php->nxt; php->nxt = 0
          let h1 := h.put n { Cell.zero with nxt := h.nxt }
          let h2 : Hash := { h1 with nxt := (h1.item q).nxt }
          .ok (h2.put q { h2.item q with nxt := 0 }, 1)
        else
          let iph := (h.item n).nxt
          let iphp := (h.item q).nxt
          let h1 := h.put q { h.item q with nxt := iph }
          .ok ({ h1.put n { Cell.zero with nxt := h.nxt } with nxt := iphp }, 1)

end Mmg.Hash
