import Verif.Py.Env
/-
librksv/utils.py: PEM lines and byte order marks.
-/
namespace RKSV

/-- The characters at which `str.splitlines` breaks lines. -/
def isLineBreak (c : Char) : Bool :=
  [0x0A, 0x0B, 0x0C, 0x0D, 0x1C, 0x1D, 0x1E, 0x85, 0x2028, 0x2029].contains c.toNat

/-- `str.splitlines()`: a line break at the end does not start another line, and a carriage return before
a line feed is no line of its own. -/
def splitLines : Str → List Str
  | [] => []
  | [c] => if isLineBreak c then [[]] else [[c]]
  | c :: d :: s =>
    if c = '\r' ∧ d = '\n' then [] :: splitLines s
    else if isLineBreak c then [] :: splitLines (d :: s)
    else
      match splitLines (d :: s) with
      | [] => [[c]]
      | l :: ls => (c :: l) :: ls

/-- `''.join(pem.splitlines()[1:-1])`: what `exportCertToPEM` and `exportKeyToPEM` do with the text they
get from the cryptography library (librksv/utils.py:160-161, 170-172). -/
def stripPEM (pem : Str) : Str := ((splitLines pem).drop 1).dropLast.flatten

/-- An open file: its content, the position in it and whether `tell` and `seek` work.  For text files the
content is the decoded text; positions are counted in characters. -/
structure PyFile (α : Type) where
  content : List α
  pos : Nat
  seekable : Bool

/-- `fd.tell()`; `none` is `IOError`. -/
def PyFile.tell {α : Type} (f : PyFile α) : Option Nat := if f.seekable then some f.pos else none

/-- `fd.read(n)` of a buffered file: less than `n` elements only at the end. -/
def PyFile.read {α : Type} (f : PyFile α) (n : Nat) : List α × PyFile α :=
  ((f.content.drop f.pos).take n, { f with pos := f.pos + ((f.content.drop f.pos).take n).length })

/-- `fd.seek(pos)`. -/
def PyFile.seek {α : Type} (f : PyFile α) (pos : Nat) : PyFile α := { f with pos := pos }

/-- `codecs.BOM_UTF8`. -/
def bomUtf8 : Bytes := [0xEF, 0xBB, 0xBF]

/-- `skipBOM` (librksv/utils.py:340-360) for a file opened in text mode: the file afterwards and the
position returned.  `codecs.BOM_UTF8.decode('utf-8')` has one character. -/
def skipBOMText (f : PyFile Char) : PyFile Char × Nat :=
  match f.tell with
  | none => (f, 0)
  | some pos =>
    let r := f.read 1
    let f' := if utf8Enc r.1 ≠ bomUtf8 then r.2.seek pos else r.2
    (f', f'.pos)

/-- `skipBOM` (librksv/utils.py:340-360) for a file opened in binary mode. -/
def skipBOMBytes (f : PyFile UInt8) : PyFile UInt8 × Nat :=
  match f.tell with
  | none => (f, 0)
  | some pos =>
    let r := f.read bomUtf8.length
    let f' := if r.1 ≠ bomUtf8 then r.2.seek pos else r.2
    (f', f'.pos)

end RKSV
