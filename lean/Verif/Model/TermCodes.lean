/-!
# Terminal control texts

util/term_codes.hh: the constants of `Term`, as texts. A program prints them in between its own texts.
-/
namespace TermCodes

/-- The eight colour names (term_codes.hh:6-31). -/
inductive Color where
  | black | red | green | yellow | blue | magenta | cyan | white
  deriving DecidableEq, Repr

/-- The constants: term_codes.hh:4-40. -/
inductive Code where
  | normal
  | plain (c : Color)
  | boldColor (c : Color)
  | blinkColor (c : Color)
  | bold
  | blink
  | jumpLineStart
  | clearLine
  | clearScreen
  | saveCursorPos
  | restoreCursorPos
  deriving DecidableEq, Repr

/-- The text of each constant: term_codes.hh:4-40. -/
def text : Code → List Char
  | .normal => "\x1b[0m".toList
  | .plain .black => "\x1b[30m".toList
  | .plain .red => "\x1b[31m".toList
  | .plain .green => "\x1b[32m".toList
  | .plain .yellow => "\x1b[33m".toList
  | .plain .blue => "\x1b[34m".toList
  | .plain .magenta => "\x1b[35m".toList
  | .plain .cyan => "\x1b[36m".toList
  | .plain .white => "\x1b[37m".toList
  | .boldColor .black => "\x1b[30;1m".toList
  | .boldColor .red => "\x1b[31;1m".toList
  | .boldColor .green => "\x1b[32;1m".toList
  | .boldColor .yellow => "\x1b[33;1m".toList
  | .boldColor .blue => "\x1b[34;1m".toList
  | .boldColor .magenta => "\x1b[35;1m".toList
  | .boldColor .cyan => "\x1b[36;1m".toList
  | .boldColor .white => "\x1b[37;1m".toList
  | .blinkColor .black => "\x1b[30;5m".toList
  | .blinkColor .red => "\x1b[31;5m".toList
  | .blinkColor .green => "\x1b[32;5m".toList
  | .blinkColor .yellow => "\x1b[33;5m".toList
  | .blinkColor .blue => "\x1b[34;5m".toList
  | .blinkColor .magenta => "\x1b[35;5m".toList
  | .blinkColor .cyan => "\x1b[36;5m".toList
  | .blinkColor .white => "\x1b[37;5m".toList
  | .bold => "\x1b[1m".toList
  | .blink => "\x1b[5m".toList
  | .jumpLineStart => "\x1b[0G".toList
  | .clearLine => "\x1b[2K".toList
  | .clearScreen => "\x1b[2J".toList
  | .saveCursorPos => "\x1b[s".toList
  | .restoreCursorPos => "\x1b[u".toList

/-- A piece of what a program prints: its own text, or a constant (term_codes.hh:4-40). -/
inductive Piece where
  | own (s : List Char)
  | code (c : Code)
  deriving DecidableEq, Repr

/-- What is sent to the terminal (term_codes.hh:4-40). -/
def sent : List Piece → List Char
  | [] => []
  | .own s :: l => s ++ sent l
  | .code c :: l => text c ++ sent l

end TermCodes
