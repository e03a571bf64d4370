import Verif.Model.PyStr
namespace L2J.Spec

/-- Value of a roman digit. -/
def romanDigit : Char → Option Nat
  | 'i' => some 1 | 'v' => some 5 | 'x' => some 10 | 'l' => some 50
  | 'c' => some 100 | 'd' => some 500 | 'm' => some 1000 | _ => none

/-- The usual subtractive reading: a digit standing directly before a larger one is subtracted,
any other is added. `none` if some character is not a roman digit. -/
def romanValue : Str → Option Int
  | [] => some 0
  | c :: rest => do
    let v ← romanDigit c
    let w ← romanValue rest
    match rest.head? with
    | some d => do
      let u ← romanDigit d
      if v < u then pure (w - v) else pure (w + v)
    | none => pure (w + v)

/-- The standard numeral of one decimal digit, given the letters for one, five and ten units. -/
def romanOfDigit (one five ten : Char) : Nat → Str
  | 0 => [] | 1 => [one] | 2 => [one, one] | 3 => [one, one, one] | 4 => [one, five]
  | 5 => [five] | 6 => [five, one] | 7 => [five, one, one] | 8 => [five, one, one, one]
  | _ => [one, ten]

/-- The standard numeral: thousands as repeated `m`, then hundreds, tens and units. -/
def standardRoman (n : Nat) : Str :=
  List.replicate (n / 1000) 'm' ++ romanOfDigit 'c' 'd' 'm' (n / 100 % 10) ++
    romanOfDigit 'x' 'l' 'c' (n / 10 % 10) ++ romanOfDigit 'i' 'v' 'x' (n % 10)

end L2J.Spec
