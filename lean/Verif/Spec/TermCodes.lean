import Verif.Model.TermCodes
/-!
# Specification: a terminal (ECMA-48), and what the names mean (C218)

The terminal reads characters: `ESC [ parameters final` is a control sequence; anything else outside of one is shown with the attributes in force. Only the finals and parameters below are known; others give `unknown`.
-/
namespace TermCodes.Spec

/-- How characters are shown: foreground colour (0 … 7, `none`: the default), bold, blinking. -/
structure Attr where
  fg : Option Nat := none
  bold : Bool := false
  blink : Bool := false
  deriving DecidableEq, Repr

/-- What the terminal does. -/
inductive Eff where
  | glyph (c : Char) (a : Attr)
  | lineStart
  | eraseLine
  | eraseScreen
  | save
  | restore
  | unknown
  deriving DecidableEq, Repr

/-- Where the terminal is: outside of control sequences, behind ESC, or in a sequence with its parameters so far (the last one first). -/
inductive Mode where
  | ground
  | esc
  | seq (ps : List Nat)
  deriving DecidableEq, Repr

/-- Select graphic rendition, one parameter. -/
def sgr (a : Attr) (p : Nat) : Attr :=
  if p = 0 then {}
  else if p = 1 then { a with bold := true }
  else if p = 5 then { a with blink := true }
  else if 30 ≤ p ∧ p ≤ 37 then { a with fg := some (p - 30) }
  else a

/-- The end of a control sequence. -/
def final (a : Attr) (ps : List Nat) (c : Char) : Attr × List Eff :=
  if c = 'm' then (ps.reverse.foldl sgr a, [])
  else if c = 'G' then (a, [if ps = [0] ∨ ps = [1] then .lineStart else .unknown])
  else if c = 'K' then (a, [if ps = [2] then .eraseLine else .unknown])
  else if c = 'J' then (a, [if ps = [2] then .eraseScreen else .unknown])
  else if c = 's' then (a, [if ps = [0] then .save else .unknown])
  else if c = 'u' then (a, [if ps = [0] then .restore else .unknown])
  else (a, [.unknown])

/-- One character. -/
def put (m : Mode) (a : Attr) (c : Char) : Mode × Attr × List Eff :=
  match m with
  | .ground => if c = '\x1b' then (.esc, a, []) else (.ground, a, [.glyph c a])
  | .esc => if c = '[' then (.seq [0], a, []) else (.ground, a, [.unknown])
  | .seq ps =>
    if c.isDigit then (.seq ((ps.headD 0 * 10 + (c.toNat - '0'.toNat)) :: ps.tail), a, [])
    else if c = ';' then (.seq (0 :: ps), a, [])
    else (.ground, (final a ps c).1, (final a ps c).2)

/-- A text: what the terminal does, and its mode and attributes afterwards. -/
def display (m : Mode) (a : Attr) : List Char → Mode × Attr × List Eff
  | [] => (m, a, [])
  | c :: l =>
    let r := put m a c
    let t := display r.1 r.2.1 l
    (t.1, t.2.1, r.2.2 ++ t.2.2)

/-- The number of a colour. -/
def number : Color → Nat
  | .black => 0 | .red => 1 | .green => 2 | .yellow => 3 | .blue => 4 | .magenta => 5 | .cyan => 6 | .white => 7

/-- What the attributes are after a constant: `Normal` switches everything off, a colour is set, `Bold` and `Blink` are switched on. -/
def meansAttr (a : Attr) : Code → Attr
  | .normal => {}
  | .plain c => { a with fg := some (number c) }
  | .boldColor c => { a with fg := some (number c), bold := true }
  | .blinkColor c => { a with fg := some (number c), blink := true }
  | .bold => { a with bold := true }
  | .blink => { a with blink := true }
  | _ => a

/-- What else a constant does. -/
def meansEff : Code → List Eff
  | .jumpLineStart => [.lineStart]
  | .clearLine => [.eraseLine]
  | .clearScreen => [.eraseScreen]
  | .saveCursorPos => [.save]
  | .restoreCursorPos => [.restore]
  | _ => []

/-- What a program means by the pieces it prints. -/
def meant (a : Attr) : List Piece → Attr × List Eff
  | [] => (a, [])
  | .own s :: l => ((meant a l).1, s.map (.glyph · a) ++ (meant a l).2)
  | .code c :: l => ((meant (meansAttr a c) l).1, meansEff c ++ (meant (meansAttr a c) l).2)

end TermCodes.Spec
