import Verif.Model.PyStr
/- Model of latex2json/utils/conversions.py. -/
namespace L2J

/-- conversions.py:2-16: the symbol table. -/
def romanSymbols : List (Str × Nat) :=
  [("M".toList, 1000), ("CM".toList, 900), ("D".toList, 500), ("CD".toList, 400), ("C".toList, 100),
   ("XC".toList, 90), ("L".toList, 50), ("XL".toList, 40), ("X".toList, 10), ("IX".toList, 9),
   ("V".toList, 5), ("IV".toList, 4), ("I".toList, 1)]

/-- conversions.py:19-21: `while num >= value: result += symbol; num -= value`. The fuel bounds the
number of iterations; `num + 1` is always enough (see `C11_loop_exits`). -/
def romanWhile (symbol : Str) (value : Nat) : Nat → Int → Str → Str × Int
  | 0, num, result => (result, num)
  | fuel + 1, num, result =>
    if num ≥ value then romanWhile symbol value fuel (num - value) (result ++ symbol)
    else (result, num)

/-- conversions.py:18-21: the `for` loop. -/
def romanFor : List (Str × Nat) → Int → Str → Str
  | [], _, result => result
  | (symbol, value) :: rest, num, result =>
    let r := romanWhile symbol value (num.toNat + 1) num result
    romanFor rest r.2 r.1

/-- `str.lower` on the letters that occur here. -/
def asciiLower (c : Char) : Char := if 'A' ≤ c ∧ c ≤ 'Z' then Char.ofNat (c.toNat + 32) else c

/-- conversions.py:1-22 `int_to_roman(num)`. -/
def intToRoman (num : Int) : Str := (romanFor romanSymbols num []).map asciiLower

end L2J
