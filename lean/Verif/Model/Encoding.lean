import Verif.Model.Delim
/-! Model of latex2json/utils/encoding.py. -/
namespace L2J.Enc

abbrev Bytes := List UInt8

/-- `chardet.detect`: a name (or None) and the confidence. A parameter. -/
abbrev Chardet := Bytes → Option String × Rat

/-- The codecs of Python other than those below: none for a name that Python does not know (LookupError), and none for bytes that the
codec refuses (UnicodeDecodeError). A parameter. -/
abbrev Codecs := String → Option (Bytes → Option Str)

/-- The character whose UTF-8 bytes stand at the beginning (CPython's decoder; `firstChar_iff` says that this is what the function of Lean's
library gives). -/
def firstChar (b : Bytes) : Option Char := b.toByteArray.utf8DecodeChar? 0

/-- May `y` come second behind the first byte `x` of three or four? -/
def second (x y : UInt8) : Bool :=
  if x = 0xE0 then 0xA0 ≤ y && y ≤ 0xBF
  else if x = 0xED then 0x80 ≤ y && y ≤ 0x9F
  else if 0xE1 ≤ x && x ≤ 0xEF then 0x80 ≤ y && y ≤ 0xBF
  else if x = 0xF0 then 0x90 ≤ y && y ≤ 0xBF
  else if x = 0xF4 then 0x80 ≤ y && y ≤ 0x8F
  else if 0xF1 ≤ x && x ≤ 0xF3 then 0x80 ≤ y && y ≤ 0xBF
  else false

/-- The number of bytes for which one U+FFFD is put, where no character stands (CPython: the longest beginning of a character, or one byte). -/
def badLen : Bytes → Nat
  | x :: y :: z :: _ => if second x y then (if 0xF0 ≤ x && (0x80 ≤ z && z ≤ 0xBF) then 3 else 2) else 1
  | [x, y] => if second x y then 2 else 1
  | _ => 1

/-- `bytes.decode("utf-8")`; the fuel is the number of bytes. -/
def utf8Go : Nat → Bytes → Option Str
  | _, [] => some []
  | 0, _ => none
  | n + 1, b =>
    match firstChar b with
    | none => none
    | some c => (utf8Go n (b.drop c.utf8Size)).map (c :: ·)

def utf8 (b : Bytes) : Option Str := utf8Go b.length b

/-- `bytes.decode("utf-8", errors="replace")`; the fuel is the number of bytes. -/
def replaceGo : Nat → Bytes → Str
  | _, [] => []
  | 0, _ => []
  | n + 1, b =>
    match firstChar b with
    | none => '\uFFFD' :: replaceGo n (b.drop (badLen b))
    | some c => c :: replaceGo n (b.drop c.utf8Size)

def utf8Replace (b : Bytes) : Str := replaceGo b.length b

/-- `bytes.decode("latin-1")`. -/
def latin1 (b : Bytes) : Str := b.map fun x => Char.ofNat x.toNat

/-- The codec of a name. -/
def codec (other : Codecs) (name : String) : Option (Bytes → Option Str) :=
  if name = "utf-8" then some utf8 else if name = "latin-1" then some fun b => some (latin1 b) else other name

/-- `open(path, "r")` reads with universal newlines: `\r\n` and `\r` become `\n`. -/
def newlines : Str → Str
  | [] => []
  | [c] => [if c = '\r' then '\n' else c]
  | c :: d :: s => if c = '\r' then (if d = '\n' then '\n' :: newlines s else '\n' :: newlines (d :: s)) else c :: newlines (d :: s)

/-- `detect_encoding`, encoding.py:5-39, on the bytes of the file. -/
def detect (chardet : Chardet) (file : Bytes) : String :=
  let raw := file.take 10000
  if raw = [] then "utf-8" else
  let r := chardet raw
  let e := match r.1 with
    | none => "utf-8"
    | some e => if r.2 < 1 / 2 then "utf-8" else e
  if e = "ascii" then "utf-8" else if e = "ISO-8859-1" then "latin-1" else if e = "Windows-1252" then "cp1252" else e

/-- `read_file`, encoding.py:42-65. The last resort (:63-65) is never reached: with errors="replace" nothing is refused. `error`: LookupError. -/
def readFile (chardet : Chardet) (other : Codecs) (file : Bytes) : Except Unit Str :=
  match codec other (detect chardet file) with
  | none => .error ()
  | some d =>
    match d file with
    | some s => .ok (newlines s)
    | none => .ok (newlines (utf8Replace file))

end L2J.Enc
