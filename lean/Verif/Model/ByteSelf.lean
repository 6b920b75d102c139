import Verif.Basic
/-!
# ByteBlock::printRaw of the block's own bytes (util/byte_block.hh)

The pointer given to `printRaw` points into the block's `std::vector`. A `push_back` on a full vector moves the bytes to new memory, after which the pointer must not be used. (`push_back(v[i])` itself is required to work.)
-/
namespace ByteSelf

/-- `printRaw(&data[k], size)`: byte_block.hh:36-39. `cap` is the vector's capacity, `grow` what the library makes of a full vector of some size; `x` is the position the pointer points to, `none` once the memory is gone. -/
def printRaw (grow : Nat → Nat) (data : List Nat) (cap : Nat) (x : Option Nat) : Nat → R (List Nat × Nat)
  | 0 => .ok (data, cap)
  | size + 1 =>
    match x with
    | none => .ub
    | some k => do
      let b ← arrGet data k
      if data.length < cap then printRaw grow (data ++ [b]) cap (some (k + 1)) size
      else printRaw grow (data ++ [b]) (grow data.length) none size

end ByteSelf
