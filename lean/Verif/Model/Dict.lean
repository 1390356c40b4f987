import Verif.Model.Sym

/-!
# Python dictionaries as insertion-ordered association lists

Models the dictionary helpers of `sympy_parsing.py` 137-168.
-/

namespace Verif

/-- A python `dict`: keys with values in insertion order.  That keys are distinct is the separate predicate `Dict.NodupKeys`. -/
abbrev Dict (α β : Type) := List (α × β)

namespace Dict
variable {α β : Type} [DecidableEq α]

/-- `d.keys()` -/
def keys (d : Dict α β) : List α := d.map Prod.fst

/-- `d.get(k)` / `d[k]` (`none`: KeyError) -/
def get? (d : Dict α β) (k : α) : Option β := (d.find? fun kv => kv.1 = k).map Prod.snd

/-- `k in d` -/
def has (d : Dict α β) (k : α) : Bool := (d.get? k).isSome

/-- `d[k] = v`: overwrite in place, or append a new key -/
def set (d : Dict α β) (k : α) (v : β) : Dict α β :=
  if d.has k then d.map (fun kv => if kv.1 = k then (k, v) else kv) else d ++ [(k, v)]

/-- distinct keys, as guaranteed by the python type `dict` -/
def NodupKeys (d : Dict α β) : Prop := d.keys.Nodup

/-- one iteration of the loop of `merge_dict` (`sympy_parsing.py` 154-159) -/
def mergeStep (plus : β → β → β) (d1 merged : Dict α β) (kv : α × β) : Dict α β :=
  if d1.has kv.1 then
    match merged.get? kv.1 with
    | some w => merged.set kv.1 (plus w kv.2)
    | none => merged
  else merged.set kv.1 kv.2

/-- `merge_dict` (`sympy_parsing.py` 151-160).  `plus` is `sp.simplify(a + b)`. -/
def merge (plus : β → β → β) (d1 d2 : Dict α β) : Dict α β := d2.foldl (mergeStep plus d1) d1

/-- `prune_dict` (`sympy_parsing.py` 163-168).  `isZero v` is `v == 0`. -/
def prune (isZero : β → Bool) (d : Dict α β) : Dict α β := d.filter fun kv => !isZero kv.2

/-- body of the inner loop of `multiply_dicts` (`sympy_parsing.py` 141-147) -/
def mulStep (times plus : β → β → β) (kv1 : α × β) (acc : Dict (α × α) β) (kv2 : α × β) : Dict (α × α) β :=
  match acc.get? (kv1.1, kv2.1) with
  | some w => acc.set (kv1.1, kv2.1) (plus w (times kv1.2 kv2.2))
  | none => acc.set (kv1.1, kv2.1) (times kv1.2 kv2.2)

/-- `multiply_dicts` (`sympy_parsing.py` 137-148).  `times` is `sp.simplify(a * b)`, `plus` is `+`. -/
def multiply (times plus : β → β → β) (d1 d2 : Dict α β) : Dict (α × α) β :=
  d1.foldl (fun acc kv1 => d2.foldl (mulStep times plus kv1) acc) []

/-- the loop `new_dict[key] = sp.simplify(value * other)` of `point.py` 53-56 and `expression.py` 62-65 -/
def mapVals (f : β → β) (d : Dict α β) : Dict α β := d.map fun kv => (kv.1, f kv.2)

/-- python `d1 == d2` on dictionaries (`function.py` 79): same number of keys, and each key of `d1` in `d2` with an equal value -/
def eqB (veq : β → β → Bool) (d1 d2 : Dict α β) : Bool :=
  d1.length == d2.length && d1.all fun kv =>
    match d2.get? kv.1 with
    | some w => veq kv.2 w
    | none => false

end Dict
end Verif
