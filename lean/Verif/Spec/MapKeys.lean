import Verif.Model.MapKeys
import Verif.Spec.SeqMap
import Verif.Spec.SequentialMap
/-! # Specification: maps whose keys are compared with the `==` of their type (C236)

Keys that are equal under `==` are one key. `cls k` is that one key: the value a float has, the text a string holds. -/
namespace MapKeys

/-- Among the keys `G`, `a == b` says whether `a` and `b` are the same key. -/
def Classes {K Q : Type} (eq : K → K → Bool) (G : K → Prop) (cls : K → Q) : Prop := ∀ a b, G a → G b → (eq a b = true ↔ cls a = cls b)

end MapKeys

namespace SequentialMap.Keys
variable {K Q V : Type}

/-- The call, with the one key that its key is. -/
def mapOp (cls : K → Q) : Op K V → Op Q V
  | .assign k v => .assign (cls k) v
  | .read k => .read (cls k)
  | .readConst k => .readConst (cls k)
  | .contains k => .contains (cls k)
  | .find k => .find (cls k)
  | .erase k => .erase (cls k)
  | .clear => .clear
  | .size => .size
  | .empty => .empty
  | .isFull => .isFull
  | .iterate => .iterate

/-- The answer, with the one key that each key is. -/
def mapOut (cls : K → Q) : Out K V → Out Q V
  | .val v => .val v
  | .num n => .num n
  | .bool b => .bool b
  | .list l => .list (l.map fun p => (cls p.1, p.2))

/-- The key of a call is among `G`. -/
def okOp (G : K → Prop) : Op K V → Prop
  | .assign k _ => G k
  | .read k => G k
  | .readConst k => G k
  | .contains k => G k
  | .find k => G k
  | .erase k => G k
  | _ => True

end SequentialMap.Keys

namespace SeqMap.Keys
variable {K Q V : Type}

/-- The call, with the one key that its key is. -/
def mapOp (cls : K → Q) : Op K V → Op Q V
  | .insert k v => .insert (cls k) v
  | .overwrite k v => .overwrite (cls k) v
  | .get k => .get (cls k)
  | .removeLast => .removeLast
  | .remove k => .remove (cls k)
  | .keyExists k => .keyExists (cls k)
  | .size => .size

/-- The key of a call is among `G`. -/
def okOp (G : K → Prop) : Op K V → Prop
  | .insert k _ => G k
  | .overwrite k _ => G k
  | .get k => G k
  | .remove k => G k
  | .keyExists k => G k
  | _ => True

end SeqMap.Keys
