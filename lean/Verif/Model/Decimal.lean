import Verif.Model.Float
import Verif.Model.Text

/-!
# Decimal texts of floats

`Display` and `FromStr` of `f32` in Rust's standard library (`core::fmt::float`, `core::num::flt2dec`, `core::num::dec2flt`), the
functions behind `to_string` and `parse` in the text formats. Printing chooses the shortest decimal number that is read as the same
float; parsing rounds the decimal number once, to nearest with ties to even.
-/

namespace FF
namespace Ieee

/-! ## Printing -/

/-- core, `flt2dec::decode`: the exponent of the last place of a float, `2^e` units. Users: src/compat/text.rs:308,
src/compat/floret/io.rs:136. -/
def lastPlace (b : Nat) : Nat := if b < 2 ^ 23 then 0 else b / 2 ^ 23 - 1

/-- core, `flt2dec::decode`: a power of two, where the distance to the float below is smaller. (core treats the smallest normal number
in the same way, although the distance below it is not smaller.) Users: src/compat/text.rs:308, src/compat/floret/io.rs:136. -/
def isPowerMag (b : Nat) : Bool := decide (2 ^ 23 ≤ b) && b % 2 ^ 23 == 0

/-- core, `flt2dec::strategy::dragon::format_shortest`: is a decimal number at this distance inside of the interval of the numbers
that are rounded to the float? Users: src/compat/text.rs:308, src/compat/floret/io.rs:136. -/
def insideBy (inclusive : Bool) (distance margin : Nat) : Bool :=
  if inclusive then decide (distance ≤ margin) else decide (distance < margin)

/-- core, `flt2dec::strategy::dragon::format_shortest`: the first position `j`, counted from `10^-151`, at which the number `v` (in
units of `2^-151 * 10^-151`) can be cut or rounded up without leaving the interval; the digits up to that position as a number. At
position 0 every float is exact. Grisu, which core tries first, gives the same digits or gives up. Users: src/compat/text.rs:308,
src/compat/floret/io.rs:136. -/
def shortestF (v minus plus : Nat) (inclusive : Bool) : Nat → Nat × Nat
  | 0 => (v / 2 ^ 151, 0)
  | j + 1 =>
    let g := 10 ^ (j + 1) * 2 ^ 151
    let r := v % g
    let down := insideBy inclusive r minus
    let up := insideBy inclusive (g - r) plus
    if up && (!down || decide (g ≤ 2 * r)) then (v / g + 1, j + 1)
    else if down then (v / g, j + 1)
    else shortestF v minus plus inclusive j

/-- core, `flt2dec::decode` and `format_shortest`: the digits of a positive finite float and the position of the last one. The
interval reaches half a place up and down, or a quarter of a place down at powers of two; its ends belong to it if the mantissa is
even. (core takes the ends of the intervals of all subnormal numbers for inside; no decimal number tried there is at an end.) The
largest float is below `10^39`, position 190. Users: src/compat/text.rs:308, src/compat/floret/io.rs:136. -/
def shortest (b : Nat) : Nat × Nat :=
  let place := 2 ^ lastPlace b * 10 ^ 151
  shortestF (4 * magUnits b * 10 ^ 151) (if isPowerMag b then place else 2 * place) (2 * place) (b % 2 == 0) 190

/-- core, `flt2dec::digits_to_dec_str` without a minimal number of fractional digits: `k * 10^(j - 151)` without exponent. Users:
src/compat/text.rs:308, src/compat/floret/io.rs:136. -/
def decimalStr (k j : Nat) : Str :=
  let ds := printNat k
  if 151 ≤ j then ds ++ List.replicate (j - 151) '0'
  else
    let f := 151 - j
    if ds.length ≤ f then '0' :: '.' :: (List.replicate (f - ds.length) '0' ++ ds)
    else ds.take (ds.length - f) ++ '.' :: ds.drop (ds.length - f)

/-- core, `impl Display for f32` without options. Users: src/compat/text.rs:308, src/compat/floret/io.rs:136. -/
def printF32 (x : F32) : Str :=
  if isNan x then ['N', 'a', 'N']
  else
    (if isNeg x then ['-'] else []) ++
      (if isInf x then ['i', 'n', 'f']
      else if f32Mag x == 0 then ['0']
      else decimalStr (shortest (f32Mag x)).1 (shortest (f32Mag x)).2)

/-! ## Parsing -/

/-- core, `dec2flt::parse::parse_scientific`: an optional sign and one or more digits up to the end; the number stops growing at
`0x10000`. Users: src/compat/text.rs:237, src/compat/floret/io.rs:74. -/
def parseExponent (s : Str) : Option Int :=
  let neg := s.head? == some '-'
  let ds := if s.head? == some '-' || s.head? == some '+' then s.drop 1 else s
  if ds = [] ∨ ¬ds.all isDigitChar then none
  else
    let v : Nat := ds.foldl (fun v c => if v < 0x10000 then v * 10 + (c.toNat - 48) else v) 0
    some (if neg then -(v : Int) else v)

/-- core, `dec2flt::parse::parse_number`: digits, optionally a point and digits, at least one digit in total, optionally an exponent.
The result `(n, e)` stands for `n * 10^e`. Users: src/compat/text.rs:237, src/compat/floret/io.rs:74. -/
def parseDecimal (s : Str) : Option (Nat × Int) :=
  let int := s.takeWhile isDigitChar
  let rest := s.dropWhile isDigitChar
  let frac := if rest.head? == some '.' then (rest.drop 1).takeWhile isDigitChar else []
  let rest := if rest.head? == some '.' then (rest.drop 1).dropWhile isDigitChar else rest
  if int ++ frac = [] then none
  else
    match rest with
    | [] => some (digitsVal (int ++ frac), -(frac.length : Int))
    | c :: rest =>
      if c = 'e' ∨ c = 'E' then
        (parseExponent rest).map fun e => (digitsVal (int ++ frac), e - frac.length)
      else none

/-- core, `dec2flt`: the magnitude bits of `n * 10^e`, rounded once (specified by core; the algorithms are not modelled). Users:
src/compat/text.rs:237, src/compat/floret/io.rs:74. -/
def decimalMag (n : Nat) : Int → Nat
  | .ofNat e => roundMag (n * 10 ^ e * 2 ^ 149) 1
  | .negSucc e => roundMag (n * 2 ^ 149) (10 ^ (e + 1))

/-- `u8::to_ascii_lowercase` on ASCII letters. Users: src/compat/text.rs:237, src/compat/floret/io.rs:74. -/
def lower (c : Char) : Char := if 65 ≤ c.toNat ∧ c.toNat ≤ 90 then Char.ofNat (c.toNat + 32) else c

/-- core, `dec2flt::parse::parse_inf_nan`; the sign bit is set on NaNs, too. Users: src/compat/text.rs:237, src/compat/floret/io.rs:74. -/
def parseInfNan (neg : Bool) (s : Str) : Option F32 :=
  let l := s.map lower
  if l = ['n', 'a', 'n'] then some (pack neg nan.toNat)
  else if l = ['i', 'n', 'f'] ∨ l = ['i', 'n', 'f', 'i', 'n', 'i', 't', 'y'] then some (pack neg infMag)
  else none

/-- core, `impl FromStr for f32`, `dec2flt::dec2flt`. Users: src/compat/text.rs:237, src/compat/floret/io.rs:74. -/
def parseF32 (s : Str) : Option F32 :=
  let neg := s.head? == some '-'
  let t := if s.head? == some '-' || s.head? == some '+' then s.drop 1 else s
  if t = [] then none
  else
    match parseDecimal t with
    | some (n, e) => some (pack neg (decimalMag n e))
    | none => parseInfNan neg t

/-- The texts of single precision floats: users src/compat/text.rs:237, :308, src/compat/floret/io.rs:74, :136. -/
abbrev floatText : FloatText F32 := ⟨printF32, parseF32⟩

end Ieee
end FF
