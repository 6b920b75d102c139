import Verif.Model.FixedVector
/-! # Loops that change the FixedVector they run over

util/fixed_vector.hh. Loops as users write them, each step a call of Model/FixedVector.lean (std::array's subscript unchecked). -/
namespace VecLoops
open FixedVector
variable {T : Type}

/-- `for (unsigned i = 0; i < v.size();) { if (p(v[i])) v.erase(i); else i++; }`: fixed_vector.hh:21-27, 83-85, 114-125; at most
`fuel` rounds. -/
def eraseIf (p : T → Bool) : Nat → St T → Nat → R (St T)
  | 0, s, _ => .ok s
  | fuel + 1, s, i =>
    if i < size s then do
      let x ← at' s i
      if p x then do
        let s ← erase false s i
        eraseIf p fuel s i
      else eraseIf p fuel s (i + 1)
    else .ok s

/-- `for (unsigned i = 0; i < v.size(); i++) if (p(v[i])) v.erase(i);`: fixed_vector.hh:21-27, 83-85, 114-125; at most `fuel` rounds. -/
def eraseIfInc (p : T → Bool) : Nat → St T → Nat → R (St T)
  | 0, s, _ => .ok s
  | fuel + 1, s, i =>
    if i < size s then do
      let x ← at' s i
      if p x then do
        let s ← erase false s i
        eraseIfInc p fuel s (i + 1)
      else eraseIfInc p fuel s (i + 1)
    else .ok s

/-- `for (unsigned i = v.size(); i-- > 0;) if (p(v[i])) v.erase(i);`: fixed_vector.hh:21-27, 83-85, 114-125; `i` from its argument
down. -/
def eraseIfDown (p : T → Bool) : Nat → St T → R (St T)
  | 0, s => .ok s
  | i + 1, s => do
    let x ← at' s i
    if p x then do
      let s ← erase false s i
      eraseIfDown p i s
    else eraseIfDown p i s

/-- `for (auto const &x : v) v.push_back(f(x));`: `end()` is taken once, before the first round: fixed_vector.hh:36-43, 141-155; `k`
elements before that `end()`. -/
def appendAll (f : T → T) (s : St T) (i : Nat) : Nat → R (St T)
  | 0 => .ok s
  | k + 1 => do
    let x ← arrGet s.data i
    let (s, _) ← pushBack s (f x)
    appendAll f s (i + 1) k

/-- the whole of that loop: fixed_vector.hh:141-155 -/
def append (f : T → T) (s : St T) : R (St T) := appendAll f s 0 (size s)

/-- `unsigned i = 0; while (i < v.size() && !(x < v[i])) i++;`: fixed_vector.hh:21-27, 83-85; at most `fuel` rounds. -/
def place (lt : T → T → Bool) (s : St T) (x : T) : Nat → Nat → R Nat
  | 0, i => .ok i
  | fuel + 1, i =>
    if i < size s then do
      let y ← at' s i
      if lt x y then .ok i else place lt s x fuel (i + 1)
    else .ok i

/-- Each of the values inserted at its place: `v.insert(i, x)`: fixed_vector.hh:99-112. -/
def insertSorted (lt : T → T → Bool) : List T → St T → R (St T)
  | [], s => .ok s
  | x :: xs, s => do
    let i ← place lt s x (size s) 0
    let s ← insert false s i x
    insertSorted lt xs s

end VecLoops
