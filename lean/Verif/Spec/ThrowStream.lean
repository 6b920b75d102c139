import Verif.Model.DoubleBuf
/-! # What a DoubleBufferStream holds, seen from outside -/
namespace ThrowStream.Spec
variable {T : Type}

/-- the elements that were handed to `transmit_func` and whose transmission has not ended -/
def underWay (s : DoubleBuf T) : List T :=
  match s.idx with
  | none => []
  | some i => s.buf i

/-- the elements that wait to be handed to it: those in the buffer that the next `transmit` adds to -/
def waiting (s : DoubleBuf T) : List T :=
  match s.idx with
  | none => s.b0
  | some i => s.buf (!i)

end ThrowStream.Spec
