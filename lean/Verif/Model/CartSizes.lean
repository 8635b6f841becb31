import Verif.Model.Cart
/-!
# Cartridge types grouped by size, cartridge.py and parsers.py
-/
namespace Atr

/-- `grouped[size].append(c)`, cartridge.py:103: a `defaultdict(list)`, the keys in the order they were added -/
def groupAppend (c : CartType) : List (Nat × List CartType) → List (Nat × List CartType)
  | [] => [(c.size, [c])]
  | (k, cs) :: g => if k = c.size then (k, cs ++ [c]) :: g else (k, cs) :: groupAppend c g

/-- the loop of `get_known_carts`, cartridge.py:100-104 -/
def groupRows (rows : List CartType) : List (Nat × List CartType) := rows.foldl (fun g c => groupAppend c g) []

/-- `get_known_carts`, cartridge.py:99-104 -/
def getKnownCarts : List (Nat × List CartType) := groupRows knownCarts.tail

/-- `grouped_carts[k]`, parsers.py:406 (a key that is not there would be added with an empty list) -/
def groupOf (g : List (Nat × List CartType)) (k : Nat) : List CartType :=
  match g.find? (·.1 == k) with
  | some (_, cs) => cs
  | none => []

/-- the rows in the order of the two loops at parsers.py:404-406 -/
def groupedRows (g : List (Nat × List CartType)) : List CartType := ((g.map (·.1)).mergeSort (· ≤ ·)).flatMap (groupOf g)

/-- `A8CartHeader.check_size`, cartridge.py:197-204: `possible_types`, a set of positions in the table, here in ascending order.
`t[0]` at line 202 is the number of the type. -/
def possibleTypes (size : Nat) : List Nat :=
  if size % 1024 = 0 ∨ size % 1024 = 16 then
    (List.range knownCarts.length).filter fun i => match knownCarts[i]? with
      | some t => decide (size / 1024 = t.id)
      | none => false
  else []

end Atr
