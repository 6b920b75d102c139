import Verif.Model.CompactBinary
/-! # Specification of the format `[key][data-size][data]`, independent of writers and parser -/
namespace CompactBinary.Spec

/-- `v` as `n` little-endian bytes: byte `i` is `v / 256^i` mod 256. -/
def le (n v : Nat) : List Byte := (List.range n).map (fun i => BitVec.ofNat 8 (v / 256 ^ i))

/-- The text of an array key: its bytes before the first NUL, at most `K`. -/
def cstr (K : Nat) (key : List Byte) : List Byte := (key.take K).takeWhile (· ≠ 0)

/-- A key the caller may pass: an array key is NUL-terminated or has all `K` bytes; another key has exactly `K` bytes. -/
def validKey (f : Fmt) (key : List Byte) : Prop := if f.arr then f.K ≤ key.length ∨ 0 ∈ key else key.length = f.K

/-- The key as stored: array keys are padded with NULs. -/
def storedKey (f : Fmt) (key : List Byte) : List Byte :=
  if f.arr then cstr f.K key ++ List.replicate (f.K - (cstr f.K key).length) 0 else key

/-- The same key: equal text for array keys, equal bytes otherwise. -/
def sameKey (f : Fmt) (a b : List Byte) : Prop := if f.arr then cstr f.K a = cstr f.K b else a = b

instance (f : Fmt) (a b : List Byte) : Decidable (sameKey f a b) := by unfold sameKey; infer_instance

def entry (f : Fmt) (key data : List Byte) : List Byte := storedKey f key ++ le f.S data.length ++ data

/-- The encoding of a description. -/
def encode (f : Fmt) : Desc → List Byte
  | .done => []
  | .field key v rest => entry f key v ++ encode f rest
  | .raw key d rest => entry f key d ++ encode f rest
  | .object key sub rest => entry f key (encode f sub) ++ encode f rest

/-- The data of the first entry with this key at the top level. -/
def first (f : Fmt) (key : List Byte) : Desc → Option (List Byte)
  | .done => none
  | .field k v rest => if sameKey f k key then some v else first f key rest
  | .raw k d rest => if sameKey f k key then some d else first f key rest
  | .object k sub rest => if sameKey f k key then some (encode f sub) else first f key rest

/-- All keys are valid. -/
def keysOk (f : Fmt) : Desc → Prop
  | .done => True
  | .field k _ rest => validKey f k ∧ keysOk f rest
  | .raw k _ rest => validKey f k ∧ keysOk f rest
  | .object k sub rest => validKey f k ∧ keysOk f sub ∧ keysOk f rest

/-- All data sizes fit the size field. -/
def fits (f : Fmt) : Desc → Prop
  | .done => True
  | .field _ v rest => v.length < 256 ^ f.S ∧ fits f rest
  | .raw _ d rest => d.length < 256 ^ f.S ∧ fits f rest
  | .object _ sub rest => (encode f sub).length < 256 ^ f.S ∧ fits f sub ∧ fits f rest

/-- Nesting depth. -/
def depth : Desc → Nat
  | .done => 0
  | .field _ _ rest | .raw _ _ rest => depth rest
  | .object _ sub rest => max (depth sub + 1) (depth rest)

/-- The calls on the imperative writer that say the same. -/
def calls : Desc → List Op
  | .done => []
  | .field k v rest => .field k v :: calls rest
  | .raw k d rest => .raw k d :: calls rest
  | .object k sub rest => .beginObject k :: (calls sub ++ .endObject :: calls rest)

/-- What is stored under a path of keys, each but the last naming a sub-object. -/
def lookup (f : Fmt) : List (List Byte) → Desc → Option (List Byte)
  | [], d => some (encode f d)
  | _ :: _, .done => none
  | k :: ks, .field k' v rest => if sameKey f k' k then (if ks = [] then some v else none) else lookup f (k :: ks) rest
  | k :: ks, .raw k' v rest => if sameKey f k' k then (if ks = [] then some v else none) else lookup f (k :: ks) rest
  | k :: ks, .object k' sub rest => if sameKey f k' k then lookup f ks sub else lookup f (k :: ks) rest
termination_by ks d => (ks.length, sizeOf d)

/-- The buffer after the bytes `bs` have been written to its start, as far as they fit. -/
def written (buf bs : List Byte) : List Byte := bs.take buf.length ++ buf.drop bs.length

/-- The two keys agree on all `K` bytes, or up to and including a NUL. -/
def agree (K : Nat) (a b : List Byte) : Prop :=
  (∀ i : Nat, i < K → a[i]? = b[i]?) ∨ ∃ n : Nat, n < K ∧ a[n]? = some 0 ∧ b[n]? = some 0 ∧ ∀ i : Nat, i < n → a[i]? = b[i]?

end CompactBinary.Spec
