import Verif.Model.MathFns
/-! # randomNumber of an unsigned type (util/math.hh) -/
namespace RandomDraw

/-- `randomNumber<uint32_t>` where `long` has 32 bits (the ARM targets): math.hh:69-72, 19-23. `(long) * (uint32_t)`, `(uint32_t) / (long)`
and the sum are all computed in `uint32_t`. A RAND_MAX of 0 does not exist. -/
def unsigned32 (randMax r lo hi : Nat) : Nat :=
  ((r * ((hi + 2 ^ 32 - lo) % 2 ^ 32)) % 2 ^ 32 / randMax + lo) % 2 ^ 32

/-- `randomNumber<uint32_t>` where `long` has 64 bits: math.hh:69-72, 19-23. The difference is computed in `uint32_t`, the rest in `long`,
where `r * difference` is below 2^63. -/
def unsigned64 (randMax r lo hi : Nat) : Nat :=
  ((r * ((hi + 2 ^ 32 - lo) % 2 ^ 32)) / randMax + lo) % 2 ^ 32

end RandomDraw
