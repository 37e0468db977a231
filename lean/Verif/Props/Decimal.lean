import Verif.Lemmas.Decimal
import Verif.Props.Written

/-!
# C79: the texts of floats

Which texts `f32` accepts and as what, and what is printed: the shortest decimal number that is read as the same float.
-/

namespace FF
namespace Ieee

/-! ## Specification -/

/-- A number without exponent: digits, perhaps with a point in front of, between, or behind them. `n` is the number without its point
and `f` the number of digits behind the point. -/
inductive Mantissa : Str → Nat → Nat → Prop
  | whole {i : Str} {n : Nat} : Decimal i n → Mantissa i n 0
  | point (i f : Str) {n : Nat} : Decimal (i ++ f) n → Mantissa (i ++ '.' :: f) n f.length

/-- An exponent, perhaps with a sign, or none. -/
inductive Exponent : Str → Int → Prop
  | none : Exponent [] 0
  | unsigned {c : Char} {ds : Str} {n : Nat} : c = 'e' ∨ c = 'E' → Decimal ds n → Exponent (c :: ds) n
  | plus {c : Char} {ds : Str} {n : Nat} : c = 'e' ∨ c = 'E' → Decimal ds n → Exponent (c :: '+' :: ds) n
  | minus {c : Char} {ds : Str} {n : Nat} : c = 'e' ∨ c = 'E' → Decimal ds n → Exponent (c :: '-' :: ds) (-(n : Int))

/-- A number `n * 10^(e - f)`. -/
def Numeral (s : Str) (n f : Nat) (e : Int) : Prop := ∃ a b, s = a ++ b ∧ Mantissa a n f ∧ Exponent b e

/-- The letters of a word in small letters `w`, each of them small or capital. -/
def Spells (s w : Str) : Prop := List.Forall₂ (fun c l => c = l ∨ c = Char.ofNat (l.toNat - 32)) s w

/-- A sign or nothing. -/
def IsSign (s : Str) (neg : Bool) : Prop := s = [] ∧ neg = false ∨ s = ['+'] ∧ neg = false ∨ s = ['-'] ∧ neg = true

/-- `k * 10^t` written without exponent: as a whole number, or with as many digits behind the point as needed and at least one in front
of it; no superfluous zeros in front. -/
def Plain (s : Str) (k : Nat) (t : Int) : Prop :=
  0 ≤ t ∧ Shown s (k * 10 ^ t.toNat) ∨
  t < 0 ∧ ∃ i f m, s = i ++ '.' :: f ∧ (f.length : Int) = -t ∧ Shown i m ∧ Decimal (i ++ f) k

/-! ## Parsing -/

theorem takeWhile_digits {a b : Str} (ha : a.all isDigitChar = true) (hb : ∀ c, b.head? = some c → isDigitChar c = false) :
    (a ++ b).takeWhile isDigitChar = a ∧ (a ++ b).dropWhile isDigitChar = b := by
  induction a with
  | nil =>
    cases b with
    | nil => exact ⟨rfl, rfl⟩
    | cons c b => simp [hb c rfl]
  | cons c a ih =>
    simp only [List.all_cons, Bool.and_eq_true] at ha
    simp [ha.1, ih ha.2]

/-- What follows the digits of a number. -/
def numTail (n f : Nat) : Str → Option (Nat × Int)
  | [] => some (n, -(f : Int))
  | c :: rest => if c = 'e' ∨ c = 'E' then (parseExponent rest).map fun e => (n, e - f) else none

theorem parseDecimal_eq (s : Str) : parseDecimal s =
    let int := s.takeWhile isDigitChar
    let rest := s.dropWhile isDigitChar
    let frac := if rest.head? == some '.' then (rest.drop 1).takeWhile isDigitChar else []
    let rest' := if rest.head? == some '.' then (rest.drop 1).dropWhile isDigitChar else rest
    if int ++ frac = [] then none else numTail (digitsVal (int ++ frac)) frac.length rest' := by
  unfold parseDecimal numTail
  rfl

theorem parseDecimal_whole {i b : Str} (hi : i ≠ []) (ha : i.all isDigitChar = true)
    (hb : ∀ c, b.head? = some c → isDigitChar c = false ∧ c ≠ '.') :
    parseDecimal (i ++ b) = numTail (digitsVal i) 0 b := by
  rw [parseDecimal_eq]
  obtain ⟨h1, h2⟩ := takeWhile_digits ha (b := b) fun c hc => (hb c hc).1
  have h3 : (b.head? == some '.') = false := by
    cases b with
    | nil => rfl
    | cons c b => simp only [List.head?_cons]; simpa using (hb c rfl).2
  dsimp only
  rw [h1, h2, h3]
  simp [hi]

theorem parseDecimal_point {i f b : Str} (hi : i ++ f ≠ []) (ha : i.all isDigitChar = true) (hf : f.all isDigitChar = true)
    (hb : ∀ c, b.head? = some c → isDigitChar c = false) :
    parseDecimal (i ++ '.' :: f ++ b) = numTail (digitsVal (i ++ f)) f.length b := by
  rw [parseDecimal_eq, List.append_assoc, List.cons_append]
  obtain ⟨h1, h2⟩ := takeWhile_digits ha (b := '.' :: (f ++ b)) fun c hc => by
    have : '.' = c := by simpa using hc
    subst this; decide
  obtain ⟨h3, h4⟩ := takeWhile_digits hf hb
  dsimp only
  rw [h1, h2]
  simp only [List.head?_cons, beq_self_eq_true, if_true, List.drop_succ_cons, List.drop_zero]
  rw [h3, h4, if_neg hi]

theorem Exponent.head {b : Str} {e : Int} (h : Exponent b e) : ∀ c, b.head? = some c → isDigitChar c = false ∧ c ≠ '.' := by
  intro c hc
  cases h with
  | none => simp at hc
  | unsigned h _ | plus h _ | minus h _ =>
    simp only [List.head?_cons, Option.some.injEq] at hc
    subst hc
    rcases h with rfl | rfl <;> decide

theorem Mantissa.parse {a b : Str} {n f : Nat} (h : Mantissa a n f)
    (hb : ∀ c, b.head? = some c → isDigitChar c = false ∧ c ≠ '.') : parseDecimal (a ++ b) = numTail n f b := by
  cases h with
  | whole h =>
    obtain ⟨h1, h2, h3⟩ := h.digits
    rw [parseDecimal_whole h1 h2 hb, h3]
  | point i f h =>
    obtain ⟨h1, h2, h3⟩ := h.digits
    simp only [List.all_append, Bool.and_eq_true] at h2
    rw [parseDecimal_point h1 h2.1 h2.2 fun c hc => (hb c hc).1, h3]

/-- The value of an exponent that stops growing. -/
def clip (s : Str) : Nat := s.foldl (fun v c => if v < 0x10000 then v * 10 + (c.toNat - 48) else v) 0

theorem clip_spec {s : Str} {n : Nat} (h : Decimal s n) :
    (n < 655360 → clip s = n) ∧ (655360 ≤ n → 65536 ≤ clip s) := by
  have hd : ∀ d < 10, (Char.ofNat (48 + d)).toNat = 48 + d := by decide
  induction h with
  | one d h => simp [clip, hd d h]; omega
  | @snoc d s n _ h ih =>
    have : clip (s ++ [Char.ofNat (48 + d)]) = if clip s < 0x10000 then clip s * 10 + d else clip s := by
      unfold clip
      rw [List.foldl_append]
      simp only [List.foldl_cons, List.foldl_nil, hd d h, Nat.add_sub_cancel_left]
    rw [this]
    obtain ⟨i1, i2⟩ := ih
    rcases Nat.lt_or_ge n 655360 with hn | hn
    · have := i1 hn
      split <;> omega
    · have := i2 hn
      split <;> omega

theorem parseExponent_eq (s : Str) : parseExponent s =
    let ds := if s.head? == some '-' || s.head? == some '+' then s.drop 1 else s
    if ds = [] ∨ ¬ds.all isDigitChar then none
    else some (if s.head? == some '-' then -(clip ds : Int) else clip ds) := rfl

theorem digit_head {s : Str} {n : Nat} (h : Decimal s n) : ∃ c t, s = c :: t ∧ isDigitChar c = true := by
  obtain ⟨h1, h2, -⟩ := h.digits
  cases s with
  | nil => exact absurd rfl h1
  | cons c t => simp only [List.all_cons, Bool.and_eq_true] at h2; exact ⟨c, t, rfl, h2.1⟩

theorem parseExponent_unsigned {ds : Str} {n : Nat} (h : Decimal ds n) : parseExponent ds = some (clip ds : Int) := by
  obtain ⟨h1, h2, -⟩ := h.digits
  obtain ⟨c, t, rfl, hc⟩ := digit_head h
  have m : (some c == some '-') = false := by rw [beq_eq_false_iff_ne]; rintro he; injection he with he; subst he; simp [isDigitChar] at hc
  have p : (some c == some '+') = false := by rw [beq_eq_false_iff_ne]; rintro he; injection he with he; subst he; simp [isDigitChar] at hc
  rw [parseExponent_eq]
  simp only [List.head?_cons, m, p, Bool.or_self, Bool.false_eq_true, if_false]
  rw [if_neg (by simp [h2])]

theorem parseExponent_plus {ds : Str} {n : Nat} (h : Decimal ds n) : parseExponent ('+' :: ds) = some (clip ds : Int) := by
  obtain ⟨h1, h2, -⟩ := h.digits
  rw [parseExponent_eq]
  change (if ds = [] ∨ ¬(ds.all isDigitChar = true) then none else some (clip ds : Int)) = _
  rw [if_neg (by simp [h1, h2])]

theorem parseExponent_minus {ds : Str} {n : Nat} (h : Decimal ds n) : parseExponent ('-' :: ds) = some (-(clip ds : Int)) := by
  obtain ⟨h1, h2, -⟩ := h.digits
  rw [parseExponent_eq]
  change (if ds = [] ∨ ¬(ds.all isDigitChar = true) then none else some (-(clip ds : Int))) = _
  rw [if_neg (by simp [h1, h2])]

/-- Exponents are read exactly below 655360, and as at least 65536 of the same sign above. -/
def Clipped (e e' : Int) : Prop :=
  (e.natAbs < 655360 → e' = e) ∧ (655360 ≤ e → 65536 ≤ e') ∧ (e ≤ -655360 → e' ≤ -65536)

theorem Exponent.parse {b : Str} {e : Int} (h : Exponent b e) (n f : Nat) :
    ∃ e', Clipped e e' ∧ numTail n f b = some (n, e' - f) := by
  unfold Clipped
  cases h with
  | none => exact ⟨0, by omega, by simp [numTail]⟩
  | @unsigned c ds m hc h =>
    have := clip_spec h
    refine ⟨(clip ds : Int), ?_, by simp only [numTail, if_pos hc, parseExponent_unsigned h, Option.map_some]⟩
    omega
  | @plus c ds m hc h =>
    have := clip_spec h
    refine ⟨(clip ds : Int), ?_, by simp only [numTail, if_pos hc, parseExponent_plus h, Option.map_some]⟩
    omega
  | @minus c ds m hc h =>
    have := clip_spec h
    refine ⟨-(clip ds : Int), ?_, by simp only [numTail, if_pos hc, parseExponent_minus h, Option.map_some]⟩
    omega

theorem Numeral.parse {s : Str} {n f : Nat} {e : Int} (h : Numeral s n f e) :
    ∃ e', Clipped e e' ∧ parseDecimal s = some (n, e' - f) := by
  obtain ⟨a, b, rfl, hm, he⟩ := h
  obtain ⟨e', h1, h2⟩ := he.parse n f
  exact ⟨e', h1, (hm.parse he.head).trans h2⟩

theorem numTail_some {n f : Nat} {b : Str} {r : Nat × Int} (h : numTail n f b = some r) : ∃ e, Exponent b e := by
  cases b with
  | nil => exact ⟨0, .none⟩
  | cons c rest =>
    simp only [numTail] at h
    split at h
    · rename_i hc
      rw [Option.map_eq_some_iff] at h
      obtain ⟨e, he, -⟩ := h
      rw [parseExponent_eq] at he
      dsimp only at he
      generalize hdd : (if rest.head? == some '-' || rest.head? == some '+' then rest.drop 1 else rest) = ds at he
      split at he
      · exact absurd he (by simp)
      · rename_i hds
        simp only [not_or, not_not] at hds
        have hdec := Decimal.of_digits _ _ rfl hds.1 hds.2
        cases rest with
        | nil => exact absurd hdd.symm hds.1
        | cons d t =>
          rw [← hdd] at hdec
          simp only [List.head?_cons, List.drop_succ_cons, List.drop_zero] at hdec
          by_cases hm : d = '-'
          · subst hm
            exact ⟨_, .minus hc (by simpa using hdec)⟩
          · by_cases hp : d = '+'
            · subst hp
              exact ⟨_, .plus hc (by simpa using hdec)⟩
            · have e1 : (some d == some '-') = false := by simpa using hm
              have e2 : (some d == some '+') = false := by simpa using hp
              rw [e1, e2] at hdec
              exact ⟨_, .unsigned hc (by simpa using hdec)⟩
    · exact absurd h (by simp)

theorem parseDecimal_some {s : Str} {r : Nat × Int} (h : parseDecimal s = some r) : ∃ n f e, Numeral s n f e := by
  rw [parseDecimal_eq] at h
  dsimp only at h
  have hs : s.takeWhile isDigitChar ++ s.dropWhile isDigitChar = s := List.takeWhile_append_dropWhile
  have hd : (s.takeWhile isDigitChar).all isDigitChar = true := List.all_takeWhile
  generalize s.takeWhile isDigitChar = i at *
  generalize s.dropWhile isDigitChar = rest at *
  by_cases hne : i ++ (if rest.head? == some '.' then (rest.drop 1).takeWhile isDigitChar else []) = []
  · rw [if_pos hne] at h; exact absurd h (by simp)
  · rw [if_neg hne] at h
    obtain ⟨e, he⟩ := numTail_some h
    by_cases hp : (rest.head? == some '.') = true
    · rw [if_pos hp] at hne he
      cases rest with
      | nil => simp at hp
      | cons c rest =>
        have : c = '.' := by simpa using hp
        subst this
        simp only [List.drop_succ_cons, List.drop_zero] at hne he
        have hs' : rest.takeWhile isDigitChar ++ rest.dropWhile isDigitChar = rest := List.takeWhile_append_dropWhile
        have hd' : (rest.takeWhile isDigitChar).all isDigitChar = true := List.all_takeWhile
        generalize rest.takeWhile isDigitChar = f at *
        generalize rest.dropWhile isDigitChar = b at *
        refine ⟨_, _, e, i ++ '.' :: f, b, ?_, .point i f (Decimal.of_digits _ _ rfl hne (by simp [hd, hd'])), he⟩
        rw [← hs, ← hs']; simp
    · rw [if_neg hp] at hne he
      exact ⟨_, _, e, i, rest, hs.symm, .whole (Decimal.of_digits _ _ rfl (by simpa using hne) hd), he⟩

theorem char_toNat : ∀ n < 128, (Char.ofNat n).toNat = n := by decide

theorem char_eq {c d : Char} (h : c.toNat = d.toNat) : c = d := Char.ext (UInt32.toNat_inj.mp h)

theorem lower_eq {l : Char} (h : 97 ≤ l.toNat ∧ l.toNat ≤ 122) (c : Char) :
    lower c = l ↔ c = l ∨ c = Char.ofNat (l.toNat - 32) := by
  unfold lower
  split
  · rename_i hc
    constructor
    · rintro rfl
      rw [char_toNat _ (by omega), Nat.add_sub_cancel, Char.ofNat_toNat]
      exact .inr rfl
    · rintro (rfl | rfl)
      · omega
      · refine char_eq ?_
        rw [char_toNat (l.toNat - 32) (by omega), char_toNat _ (by omega)]
        omega
  · rename_i hc
    constructor
    · exact .inl
    · rintro (rfl | rfl)
      · rfl
      · rw [char_toNat _ (by omega)] at hc
        omega

theorem map_lower (s : Str) : ∀ w : Str, (∀ l ∈ w, 97 ≤ l.toNat ∧ l.toNat ≤ 122) → (s.map lower = w ↔ Spells s w) := by
  unfold Spells
  induction s with
  | nil =>
    intro w _
    cases w with
    | nil => simp
    | cons l w => simp
  | cons c s ih =>
    intro w hw
    cases w with
    | nil => simp
    | cons l w =>
      rw [List.forall₂_cons, List.map_cons, List.cons.injEq, lower_eq (hw l (by simp)), ih w fun x hx => hw x (by simp [hx])]

theorem parseInfNan_eq (neg : Bool) (t : Str) (r : F32) : parseInfNan neg t = some r ↔
    (Spells t ['n', 'a', 'n'] ∧ r = pack neg nan.toNat) ∨
    ((Spells t ['i', 'n', 'f'] ∨ Spells t ['i', 'n', 'f', 'i', 'n', 'i', 't', 'y']) ∧ r = pack neg infMag) := by
  rw [← map_lower t _ (by decide), ← map_lower t _ (by decide), ← map_lower t _ (by decide)]
  unfold parseInfNan
  dsimp only
  generalize t.map lower = l
  by_cases h : l = ['n', 'a', 'n']
  · rw [if_pos h]
    constructor
    · rintro ⟨⟩; exact .inl ⟨h, rfl⟩
    · rintro (⟨-, rfl⟩ | ⟨h' | h', -⟩)
      · rfl
      · rw [h] at h'; exact absurd h' (by decide)
      · rw [h] at h'; exact absurd h' (by decide)
  · rw [if_neg h]
    by_cases h' : l = ['i', 'n', 'f'] ∨ l = ['i', 'n', 'f', 'i', 'n', 'i', 't', 'y']
    · rw [if_pos h']
      constructor
      · rintro ⟨⟩; exact .inr ⟨h', rfl⟩
      · rintro (⟨hn, -⟩ | ⟨-, rfl⟩)
        · exact absurd hn h
        · rfl
    · rw [if_neg h']
      constructor
      · rintro ⟨⟩
      · rintro (⟨hn, -⟩ | ⟨hn, -⟩)
        · exact absurd hn h
        · exact absurd hn h'

theorem Numeral.head {t : Str} {n f : Nat} {e : Int} (h : Numeral t n f e) : ∃ c r, t = c :: r ∧ (isDigitChar c = true ∨ c = '.') := by
  obtain ⟨a, b, rfl, hm, -⟩ := h
  cases hm with
  | whole h =>
    obtain ⟨c, r, rfl, hc⟩ := digit_head h
    exact ⟨c, r ++ b, rfl, .inl hc⟩
  | point i f h =>
    cases i with
    | nil => exact ⟨'.', f ++ b, rfl, .inr rfl⟩
    | cons c i =>
      have := h.digits.2.1
      simp only [List.cons_append, List.all_cons, Bool.and_eq_true] at this
      exact ⟨c, i ++ '.' :: f ++ b, rfl, .inl this.1⟩

/-- The text is not empty and does not begin with a sign. -/
def Bare (t : Str) : Prop := ∃ c r, t = c :: r ∧ c ≠ '+' ∧ c ≠ '-'

theorem Numeral.bare {t : Str} {n f : Nat} {e : Int} (h : Numeral t n f e) : Bare t := by
  obtain ⟨c, r, rfl, hc⟩ := h.head
  refine ⟨c, r, rfl, ?_, ?_⟩ <;> rintro rfl <;> exact absurd hc (by decide)

theorem Spells.bare {t w : Str} {l : Char} (h : Spells t (l :: w)) (hl : l = 'n' ∨ l = 'i') : Bare t := by
  cases h with
  | cons hc _ =>
    refine ⟨_, _, rfl, ?_, ?_⟩ <;> rintro rfl <;> rcases hl with rfl | rfl <;> exact absurd hc (by decide)

theorem parseF32_signed {s t : Str} {neg : Bool} (hs : IsSign s neg) (ht : Bare t) :
    parseF32 (s ++ t) = match parseDecimal t with
      | some (n, e) => some (pack neg (decimalMag n e))
      | none => parseInfNan neg t := by
  obtain ⟨c, r, rfl, h1, h2⟩ := ht
  unfold parseF32
  rcases hs with ⟨rfl, rfl⟩ | ⟨rfl, rfl⟩ | ⟨rfl, rfl⟩
  · have e1 : (some c == some '-') = false := by simpa using h2
    have e2 : (some c == some '+') = false := by simpa using h1
    simp only [List.nil_append, List.head?_cons, e1, e2, Bool.or_self, Bool.false_eq_true, if_false, reduceCtorEq]
    rfl
  · rfl
  · rfl

theorem parseF32_some {s : Str} {r : F32} (h : parseF32 s = some r) :
    ∃ sign neg t, IsSign sign neg ∧ s = sign ++ t ∧ ((∃ n e, parseDecimal t = some (n, e)) ∨ parseInfNan neg t = some r) := by
  have key : ∀ neg t, (match parseDecimal t with
      | some (n, e) => some (pack neg (decimalMag n e))
      | none => parseInfNan neg t) = some r → (∃ n e, parseDecimal t = some (n, e)) ∨ parseInfNan neg t = some r := by
    intro neg t h
    cases hp : parseDecimal t with
    | none => rw [hp] at h; exact .inr h
    | some p => exact .inl ⟨p.1, p.2, rfl⟩
  unfold parseF32 at h
  dsimp only at h
  cases s with
  | nil => simp at h
  | cons c t =>
    by_cases hm : c = '-'
    · subst hm
      rw [show ((('-' :: t).head? == some '-' || ('-' :: t).head? == some '+')) = true from rfl, if_pos rfl,
        show ('-' :: t).drop 1 = t from rfl, show (('-' :: t).head? == some '-') = true from rfl] at h
      split at h
      · exact absurd h (by simp)
      · exact ⟨['-'], true, t, .inr (.inr ⟨rfl, rfl⟩), rfl, key _ _ h⟩
    · by_cases hp : c = '+'
      · subst hp
        rw [show ((('+' :: t).head? == some '-' || ('+' :: t).head? == some '+')) = true from rfl, if_pos rfl,
          show ('+' :: t).drop 1 = t from rfl, show (('+' :: t).head? == some '-') = false from rfl] at h
        split at h
        · exact absurd h (by simp)
        · exact ⟨['+'], false, t, .inr (.inl ⟨rfl, rfl⟩), rfl, key _ _ h⟩
      · have e1 : ((c :: t).head? == some '-') = false := by simpa using hm
        have e2 : ((c :: t).head? == some '+') = false := by simpa using hp
        rw [e1, e2, show (false || false) = false from rfl, if_neg (show ¬ (false = true) by decide), if_neg (by simp)] at h
        exact ⟨[], false, c :: t, .inl ⟨rfl, rfl⟩, rfl, key _ _ h⟩

theorem infNan_digit {t : Str} {neg : Bool} {r : F32} (h : parseInfNan neg t = some r) : parseDecimal t = none := by
  cases hp : parseDecimal t with
  | none => rfl
  | some p =>
    exfalso
    obtain ⟨n, f, e, hn⟩ := parseDecimal_some hp
    obtain ⟨c, r', rfl, hc⟩ := hn.head
    rw [parseInfNan_eq] at h
    rcases h with ⟨h, -⟩ | ⟨h | h, -⟩ <;> cases h <;> rename_i h _ <;> rcases h with rfl | rfl <;> exact absurd hc (by decide)

/-- **C79** (accepted texts). A text is read as a float exactly if it is a number with an optional point and exponent, or one of the
words `nan`, `inf`, `infinity` in letters of any case; a sign may be in front. There are no spaces, and digits are necessary. -/
theorem c79_accepts (s : Str) : (∃ r, parseF32 s = some r) ↔ ∃ sign neg t, IsSign sign neg ∧ s = sign ++ t ∧
    ((∃ n f e, Numeral t n f e) ∨ Spells t "nan".toList ∨ Spells t "inf".toList ∨ Spells t "infinity".toList) := by
  constructor
  · rintro ⟨r, hr⟩
    obtain ⟨sign, neg, t, hs, he, h⟩ := parseF32_some hr
    refine ⟨sign, neg, t, hs, he, ?_⟩
    clear hr
    rcases h with ⟨n, e, h⟩ | h
    · exact .inl (parseDecimal_some h)
    · rw [parseInfNan_eq] at h
      rcases h with ⟨h, -⟩ | ⟨h | h, -⟩
      · exact .inr (.inl h)
      · exact .inr (.inr (.inl h))
      · exact .inr (.inr (.inr h))
  · rintro ⟨sign, neg, t, hs, rfl, h⟩
    rcases h with ⟨n, f, e, h⟩ | h
    · obtain ⟨e', -, hp⟩ := h.parse
      rw [parseF32_signed hs h.bare, hp]
      exact ⟨_, rfl⟩
    · have : ∃ r, parseInfNan neg t = some r ∧ Bare t := by
        rcases h with h | h | h
        · exact ⟨_, (parseInfNan_eq _ _ _).mpr (.inl ⟨h, rfl⟩), Spells.bare h (.inl rfl)⟩
        · exact ⟨_, (parseInfNan_eq _ _ _).mpr (.inr ⟨.inl h, rfl⟩), Spells.bare h (.inr rfl)⟩
        · exact ⟨_, (parseInfNan_eq _ _ _).mpr (.inr ⟨.inr h, rfl⟩), Spells.bare h (.inr rfl)⟩
      obtain ⟨r, h, hb⟩ := this
      rw [parseF32_signed hs hb, infNan_digit h]
      exact ⟨r, h⟩

/-- **C79** (words). The words stand for infinities and NaNs with the given sign. -/
theorem c79_words {sign t : Str} {neg : Bool} (hs : IsSign sign neg) :
    (Spells t "nan".toList → parseF32 (sign ++ t) = some (if neg then 0xffc00000 else 0x7fc00000)) ∧
    (Spells t "inf".toList ∨ Spells t "infinity".toList →
      parseF32 (sign ++ t) = some (if neg then 0xff800000 else 0x7f800000)) := by
  constructor
  · intro h
    have h' := (parseInfNan_eq neg t _).mpr (.inl ⟨h, rfl⟩)
    rw [parseF32_signed hs (Spells.bare h (.inl rfl)), infNan_digit h', h']
    cases neg <;> rfl
  · intro h
    have h' := (parseInfNan_eq neg t _).mpr (.inr ⟨h, rfl⟩)
    have hb : Bare t := by rcases h with h | h <;> exact Spells.bare h (.inr rfl)
    rw [parseF32_signed hs hb, infNan_digit h', h']
    cases neg <;> rfl

/-- Hypothesis of `c79_words`: a word with a sign. -/
example := c79_words (sign := ['-']) (t := "iNf".toList) (neg := true) (.inr (.inr ⟨rfl, rfl⟩))

theorem roundMag_tiny {N D : Nat} (hD : 0 < D) (h : (N : ℝ) / D < 1 / 2) : roundMag N D = 0 := by
  have h1 := (rawMag_nearest hD (sameSide_div N D hD) 0).1
  have h2 := sameSide_nonneg (sameSide_div N D hD)
  rw [magUnits_zero, Nat.cast_zero, zero_sub, abs_neg, abs_of_nonneg h2] at h1
  have h3 := le_abs_self ((magUnits (rawMag N D) : ℝ) - (N : ℝ) / D)
  have h4 : (magUnits (rawMag N D) : ℝ) < 1 := by linarith
  have h5 : magUnits (rawMag N D) = magUnits 0 := by
    rw [magUnits_zero]
    have : magUnits (rawMag N D) < 1 := by exact_mod_cast h4
    omega
  rw [roundMag_eq, magUnits_inj h5]
  omega

theorem decimalMag_tiny {n : Nat} {e : Int} (h : decUnits n e < 1 / 2) : decimalMag n e = 0 := by
  obtain ⟨N, D, hD, hm, hz⟩ := decimalMag_form n e
  rw [hm]
  exact roundMag_tiny hD (hz ▸ h)

theorem decimalMag_huge {n : Nat} {e : Int} (h : (2 : ℝ) ^ 128 ≤ n * 10 ^ e) : decimalMag n e = infMag := by
  obtain ⟨N, D, hD, hm, hz⟩ := decimalMag_form n e
  have ho := roundMag_overflow hD (sameSide_div N D hD)
  have hp : (0 : ℝ) < 2 ^ 149 := by positivity
  rw [hz, decUnits_eq, mul_div_cancel_right₀ _ hp.ne'] at ho
  have hle := roundMag_le N D
  have : ¬ roundMag N D < infMag := by
    rw [ho]
    intro hc
    have h2 : (0 : ℝ) < 2 ^ 103 := by positivity
    linarith
  rw [hm]
  omega

theorem decimalMag_clip {n f D : Nat} {e e' : Int} (hc : Clipped e e')
    (hb : e.natAbs < 655360 ∨ f ≤ D ∧ n < 10 ^ D ∧ D < 65000) : decimalMag n (e' - f) = decimalMag n (e - f) := by
  obtain ⟨c1, c2, c3⟩ := hc
  by_cases hs : e.natAbs < 655360
  · rw [c1 hs]
  · obtain ⟨h1, h2, h3⟩ := hb.resolve_left hs
    rcases Nat.eq_zero_or_pos n with rfl | hn
    · have h : ∀ e, decimalMag 0 e = 0 := fun e => decimalMag_tiny (by
        rw [decUnits_eq, Nat.cast_zero, zero_mul, zero_mul]; norm_num)
      rw [h, h]
    · rcases Int.le_total 0 e with he | he
      · have big : ∀ q : Int, 39 ≤ q → decimalMag n q = infMag := by
          intro q hq
          refine decimalMag_huge ?_
          have g1 : (1 : ℝ) ≤ n := by exact_mod_cast hn
          have g2 : (10 : ℝ) ^ (39 : Int) ≤ 10 ^ q := zpow_le_zpow_right₀ (by norm_num) hq
          have g3 : (2 : ℝ) ^ 128 ≤ 10 ^ (39 : Int) := by norm_num
          have g4 : (0 : ℝ) ≤ 10 ^ q := zpow_nonneg (by norm_num) _
          nlinarith
        rw [big _ (by have := c2 (by omega); omega), big _ (by omega)]
      · have small : ∀ q : Int, q ≤ -46 - D → decimalMag n q = 0 := by
          intro q hq
          refine decimalMag_tiny ?_
          rw [decUnits_eq]
          have g1 : (n : ℝ) < 10 ^ (D : Int) := by
            rw [zpow_natCast]
            have : (n : ℝ) < ((10 ^ D : Nat) : ℝ) := by exact_mod_cast h2
            rwa [Nat.cast_pow, Nat.cast_ofNat] at this
          have g2 : (10 : ℝ) ^ q ≤ 10 ^ (-46 - (D : Int)) := zpow_le_zpow_right₀ (by norm_num) hq
          have g3 : (10 : ℝ) ^ (D : Int) * 10 ^ (-46 - (D : Int)) = 10 ^ (-46 : Int) := by
            rw [← zpow_add₀ (by norm_num)]; congr 1; omega
          have g4 : (10 : ℝ) ^ (-46 : Int) * 2 ^ 149 < 1 / 2 := by norm_num
          have g5 : (0 : ℝ) < 10 ^ q := zpow_pos (by norm_num) _
          have g6 : (0 : ℝ) < 10 ^ (D : Int) := zpow_pos (by norm_num) _
          have g7 : (n : ℝ) * 10 ^ q ≤ 10 ^ (-46 : Int) := by
            rw [← g3]
            exact mul_le_mul g1.le g2 g5.le g6.le
          have hp : (0 : ℝ) < 2 ^ 149 := by positivity
          exact lt_of_le_of_lt (mul_le_mul_of_nonneg_right g7 hp.le) g4
        rw [small _ (by have := c3 (by omega); omega), small _ (by omega)]

theorem Decimal.bound {s : Str} {n : Nat} (h : Decimal s n) : n < 10 ^ s.length := by
  induction h with
  | one d h => simpa using h
  | snoc d _ h ih =>
    rw [List.length_append, List.length_singleton, Nat.pow_succ]
    omega

theorem Numeral.bound {t : Str} {n f : Nat} {e : Int} (h : Numeral t n f e) : f ≤ t.length ∧ n < 10 ^ t.length := by
  obtain ⟨a, b, rfl, hm, -⟩ := h
  have mono : ∀ x y : Nat, x ≤ y → 10 ^ x ≤ 10 ^ y := fun x y h => Nat.pow_le_pow_right (by decide) h
  cases hm with
  | whole h =>
    exact ⟨Nat.zero_le _, lt_of_lt_of_le (Decimal.bound h) (mono _ _ (by simp))⟩
  | point i f h =>
    refine ⟨by simp; omega, lt_of_lt_of_le (Decimal.bound h) (mono _ _ ?_)⟩
    simp; omega

/-- **C79** (numbers). A number is read as the float that is nearest to its exact value, ties to even, infinity beyond the largest
floats; with the sign that is given, also for zero. The exponent may have any size if the text has less than 65,000 characters;
for longer texts it has to be below 655,360 in magnitude. -/
theorem c79_rounded {sign t : Str} {neg : Bool} {n f : Nat} {e : Int} (hs : IsSign sign neg) (h : Numeral t n f e)
    (hb : e.natAbs < 655360 ∨ t.length < 65000) :
    ∃ r, parseF32 (sign ++ t) = some r ∧ isNeg r = neg ∧ Rounded r ((if neg then -1 else 1) * (n * 10 ^ (e - f))) := by
  obtain ⟨e', hc, hp⟩ := h.parse
  obtain ⟨b1, b2⟩ := h.bound
  rw [parseF32_signed hs h.bare, hp]
  refine ⟨_, rfl, ?_, ?_⟩
  · refine pack_neg ?_
    obtain ⟨N, D, -, hm, -⟩ := decimalMag_form n (e' - f)
    rw [hm]
    exact roundMag_le _ _
  · rw [decimalMag_clip (D := t.length) hc (hb.imp id fun h => ⟨b1, b2, h⟩)]
    obtain ⟨N, D, hD, hm, hz⟩ := decimalMag_form n (e - f)
    have := rounded_pack (s := neg) hD (sameSide_div N D hD)
    have hp : (0 : ℝ) < 2 ^ 149 := by positivity
    rw [hz, decUnits_eq, mul_div_cancel_right₀ _ hp.ne', ← hm] at this
    exact this

/-! ## Printing -/

theorem Decimal.zeros {s : Str} {n : Nat} (h : Decimal s n) (m : Nat) : Decimal (s ++ List.replicate m '0') (n * 10 ^ m) := by
  induction m with
  | zero => simpa using h
  | succ m ih =>
    have := Decimal.snoc 0 ih (by decide)
    rw [List.replicate_succ', ← List.append_assoc, Nat.pow_succ, ← Nat.mul_assoc, Nat.mul_comm _ 10]
    exact this

theorem digitsVal_zeros (m : Nat) (s : Str) : digitsVal (List.replicate m '0' ++ s) = digitsVal s := by
  induction m with
  | zero => rfl
  | succ m ih =>
    rw [List.replicate_succ, List.cons_append]
    exact ih

theorem printNat_head {k : Nat} (hk : 0 < k) : (printNat k).head? ≠ some '0' := by
  intro h
  obtain ⟨h1, h2⟩ := printNat_shown k
  rw [h2 h] at h1
  have : k = 0 := h1.digits.2.2.symm.trans rfl
  omega

theorem plain_decimalStr {k : Nat} (hk : 0 < k) (j : Nat) : Plain (decimalStr k j) k ((j : Int) - 151) := by
  have hd := (printNat_shown k).1
  have hh := printNat_head hk
  obtain ⟨d1, d2, d3⟩ := hd.digits
  unfold decimalStr
  dsimp only
  by_cases hj : 151 ≤ j
  · rw [if_pos hj]
    refine .inl ⟨by omega, ?_, ?_⟩
    · rw [show ((j : Int) - 151).toNat = j - 151 by omega]
      exact Decimal.zeros hd _
    · intro h
      exfalso
      apply hh
      cases hp : printNat k with
      | nil => exact absurd hp d1
      | cons c r => rw [hp] at h; exact h
  · rw [if_neg hj]
    refine .inr ⟨by omega, ?_⟩
    by_cases hl : (printNat k).length ≤ 151 - j
    · rw [if_pos hl]
      refine ⟨['0'], _, 0, rfl, ?_, ⟨.one 0 (by decide), fun _ => rfl⟩, ?_⟩
      · simp only [List.length_append, List.length_replicate]; omega
      · have : Decimal (['0'] ++ (List.replicate (151 - j - (printNat k).length) '0' ++ printNat k))
            (digitsVal (List.replicate (151 - j - (printNat k).length + 1) '0' ++ printNat k)) :=
          Decimal.of_digits _ _ rfl (by simp) (by
            simp only [List.all_append, d2, Bool.and_true, Bool.and_eq_true]
            refine ⟨by decide, ?_⟩
            rw [List.all_eq_true]
            intro c hc
            rw [(List.mem_replicate.mp hc).2]; decide)
        rwa [digitsVal_zeros, d3] at this
    · rw [if_neg hl]
      refine ⟨_, _, digitsVal ((printNat k).take ((printNat k).length - (151 - j))), rfl, ?_, ⟨?_, ?_⟩, ?_⟩
      · rw [List.length_drop]; omega
      · refine Decimal.of_digits _ _ rfl ?_ ?_
        · intro h0
          have := congrArg List.length h0
          rw [List.length_take, List.length_nil] at this
          omega
        · rw [List.all_eq_true] at d2 ⊢
          exact fun c hc => d2 c (List.mem_of_mem_take hc)
      · intro h
        exfalso
        apply hh
        rw [List.head?_take] at h
        split at h
        · exact absurd h (by simp)
        · exact h
      · rw [List.take_append_drop]; exact hd

theorem Plain.mantissa {s : Str} {k : Nat} {t : Int} (h : Plain s k t) :
    ∃ n f, Mantissa s n f ∧ decUnits n (0 - (f : Int)) = decUnits k t := by
  rcases h with ⟨ht, h⟩ | ⟨ht, i, f, m, rfl, hf, -, hd⟩
  · refine ⟨_, _, .whole h.1, ?_⟩
    rw [decUnits_eq, decUnits_eq]
    congr 1
    rw [Nat.cast_mul, Nat.cast_pow, Nat.cast_ofNat, Nat.cast_zero, sub_zero, zpow_zero, mul_one, ← zpow_natCast,
      Int.toNat_of_nonneg ht]
  · refine ⟨_, _, .point i f hd, ?_⟩
    rw [show (0 : Int) - (f.length : Int) = t by omega]

theorem shortest_pos {b : Nat} (h0 : 0 < b) : 0 < (shortest b).1 := by
  by_contra hc
  have hz : (shortest b).1 = 0 := by omega
  have h1 := (shortest_inside (b := b)).1
  rw [hz, decUnits_eq, Nat.cast_zero, zero_mul, zero_mul, mul_zero] at h1
  have h2 := (gap_down h0).1
  have h3 : (marginDown b : ℝ) ≤ 2 * magUnits b := by exact_mod_cast (by omega : marginDown b ≤ 2 * magUnits b)
  have h4 : (0 : ℝ) < magUnits b := by exact_mod_cast (magUnits_zero ▸ magUnits_strict h0 : 0 < magUnits b)
  linarith

theorem pack_self (x : F32) : pack (isNeg x) (f32Mag x) = x := by
  have := x.toNat_lt
  unfold pack isNeg f32Mag
  apply UInt32.toNat_inj.mp
  rw [UInt32.toNat_ofNat']
  split <;> rename_i h <;> simp only [decide_eq_true_eq] at h <;> omega

theorem printF32_finite {x : F32} (hx : Finite x) (h0 : 0 < f32Mag x) :
    printF32 x = (if isNeg x then ['-'] else []) ++ decimalStr (shortest (f32Mag x)).1 (shortest (f32Mag x)).2 := by
  unfold printF32
  rw [hx.notNan, hx.notInf, show (f32Mag x == 0) = false by rw [beq_eq_false_iff_ne]; omega]
  rfl

theorem isSign_neg (b : Bool) : IsSign (if b then ['-'] else []) b := by
  cases b
  · exact .inl ⟨rfl, rfl⟩
  · exact .inr (.inr ⟨rfl, rfl⟩)

/-- **C79** (printed numbers). A finite float other than zero is printed as a sign if it is negative and a decimal number without
exponent. The number is rounded to the float. It is the shortest one: no decimal number that ends at an earlier position is rounded
to the float, and none that ends at the same position is closer. -/
theorem c79_printed {x : F32} (hx : Finite x) (h0 : 0 < f32Mag x) :
    ∃ s k t, printF32 x = (if isNeg x then ['-'] else []) ++ s ∧ Plain s k t ∧
      Rounded x ((if isNeg x then -1 else 1) * (k * 10 ^ t)) ∧
      ∀ (k' : Nat) (q : Int), Rounded x ((if isNeg x then -1 else 1) * (k' * 10 ^ q)) →
        q ≤ t ∧ (q = t → |(k : ℝ) * 10 ^ t - abs (val x)| ≤ |(k' : ℝ) * 10 ^ q - abs (val x)|) := by
  refine ⟨_, _, _, printF32_finite hx h0, plain_decimalStr (shortest_pos h0) _, ?_, ?_⟩
  · obtain ⟨N, D, hD, hm, hz⟩ := decimalMag_form (shortest (f32Mag x)).1 (((shortest (f32Mag x)).2 : Int) - 151)
    have := rounded_pack (s := isNeg x) hD (sameSide_div N D hD)
    have hp : (0 : ℝ) < 2 ^ 149 := by positivity
    rw [hz, decUnits_eq, mul_div_cancel_right₀ _ hp.ne', ← hm, decimalMag_shortest h0 hx rfl, pack_self] at this
    exact this
  · intro k' q h
    obtain ⟨h1, h2⟩ := shortest_of_rounded hx h0 h
    exact ⟨h1, fun hq => by have := h2 hq; subst hq; exact this⟩

/-- **C79** (other values). Zeros keep their sign; infinities are printed as `inf` and `-inf`, all NaNs as `NaN`. -/
theorem c79_special : printF32 0 = "0".toList ∧ printF32 0x80000000 = "-0".toList ∧ printF32 0x7f800000 = "inf".toList ∧
    printF32 0xff800000 = "-inf".toList ∧ ∀ x, isNan x = true → printF32 x = "NaN".toList := by
  refine ⟨by decide, by decide, by decide, by decide, fun x h => ?_⟩
  unfold printF32
  rw [if_pos h]
  rfl

/-- **C79** (round trip). Every float but NaNs is read back bit by bit; NaNs are read as the quiet NaN. -/
theorem c79_roundtrip (x : F32) : parseF32 (printF32 x) = some (if isNan x then 0x7fc00000 else x) := by
  by_cases hn : isNan x = true
  · rw [c79_special.2.2.2.2 x hn, if_pos hn]
    decide
  · rw [if_neg hn]
    by_cases hi : f32Mag x = infMag
    · have hp : printF32 x = (if isNeg x then ['-'] else []) ++ ['i', 'n', 'f'] := by
        unfold printF32
        rw [if_neg hn, show isInf x = true by simpa [isInf] using hi]
        rfl
      have hx := pack_self x
      rw [hi] at hx
      rw [hp, (c79_words (t := ['i', 'n', 'f']) (isSign_neg (isNeg x))).2
        (.inl ((map_lower _ _ (by decide)).mp (by decide))), ← hx]
      cases isNeg x <;> decide
    · have hx : Finite x := by
        unfold Finite
        have : ¬ infMag < f32Mag x := by simpa [isNan] using hn
        omega
      rcases Nat.eq_zero_or_pos (f32Mag x) with h0 | h0
      · have hx' := pack_self x
        rw [h0] at hx'
        cases hs : isNeg x <;> rw [hs] at hx' <;> rw [← hx'] <;> decide
      · obtain ⟨n, f, hm, hv⟩ := (plain_decimalStr (shortest_pos h0) (shortest (f32Mag x)).2).mantissa
        have hnum : Numeral _ n f 0 := ⟨_, [], (List.append_nil _).symm, hm, .none⟩
        have hp := (hm.parse (b := []) (by simp)).trans rfl
        rw [List.append_nil] at hp
        rw [printF32_finite hx h0, parseF32_signed (isSign_neg _) hnum.bare, hp]
        simp only [numTail]
        rw [← Int.zero_sub, decimalMag_shortest h0 hx hv, pack_self]

theorem Plain.chars {s : Str} {k : Nat} {t : Int} (h : Plain s k t) : s ≠ [] ∧ ∀ c ∈ s, isDigitChar c = true ∨ c = '.' := by
  rcases h with ⟨-, h⟩ | ⟨-, i, f, m, rfl, -, -, h⟩
  · obtain ⟨h1, h2, -⟩ := h.1.digits
    rw [List.all_eq_true] at h2
    exact ⟨h1, fun c hc => .inl (h2 c hc)⟩
  · obtain ⟨-, h2, -⟩ := h.digits
    rw [List.all_eq_true] at h2
    refine ⟨by simp, fun c hc => ?_⟩
    simp only [List.mem_append, List.mem_cons] at hc h2
    rcases hc with hc | hc | hc
    · exact .inl (h2 c (.inl hc))
    · exact .inr hc
    · exact .inl (h2 c (.inr hc))

/-- The texts of floats are tokens: not empty and without white space. -/
theorem printF32_token (x : F32) : IsToken (printF32 x) := by
  have dig : ∀ c, isDigitChar c = true ∨ c = '.' → isAsciiWs c = false := by
    rintro c (h | rfl)
    · obtain ⟨d, hd, rfl, -⟩ := (digit_iff c).mp h
      have : ∀ d < 10, isAsciiWs (Char.ofNat (48 + d)) = false := by decide
      exact this d hd
    · decide
  unfold printF32
  split
  · exact ⟨by decide, by decide⟩
  · have hs : ∀ c ∈ (if isNeg x then ['-'] else []), isAsciiWs c = false := by cases isNeg x <;> decide
    have body : ∀ b : Str, b ≠ [] → (∀ c ∈ b, isAsciiWs c = false) → IsToken ((if isNeg x then ['-'] else []) ++ b) := by
      intro b h1 h2
      refine ⟨by simp [h1], fun c hc => ?_⟩
      rcases List.mem_append.mp hc with hc | hc
      · exact hs c hc
      · exact h2 c hc
    by_cases hi : isInf x = true
    · rw [if_pos hi]
      exact body ['i', 'n', 'f'] (by decide) (by decide)
    · rw [if_neg hi]
      by_cases h0 : (f32Mag x == 0) = true
      · rw [if_pos h0]
        exact body ['0'] (by decide) (by decide)
      · rw [if_neg h0]
        obtain ⟨h1, h2⟩ := (plain_decimalStr (shortest_pos (b := f32Mag x) (by
          have : f32Mag x ≠ 0 := by simpa using h0
          omega)) (shortest (f32Mag x)).2).chars
        exact body _ h1 fun c hc => dig c (h2 c hc)

attribute [local instance] floatText in
/-- Every float but NaNs survives printing and parsing. -/
theorem faithful {x : F32} (h : isNan x = false) : FloatText.Faithful x := by
  refine ⟨printF32_token x, ?_⟩
  have := c79_roundtrip x
  rw [h] at this
  exact this

/-! ## Files -/

section
attribute [local instance] scalar floatText

theorem mul_not_nan {x y : F32} (hx : Finite x) (hy : Finite y) : isNan (mul x y) = false := by
  rw [mul_finite_eq hx hy]
  unfold isNan
  rw [pack_mag (roundMag_le _ _)]
  have := roundMag_le (magUnits (f32Mag x) * magUnits (f32Mag y)) (2 ^ 149)
  simpa using this

theorem written_not_nan {un : Bool} {r : Str × List F32 × F32} (h : Finite r.2.2 ∧ ∀ x ∈ r.2.1, Finite x) :
    ∀ x ∈ writtenVector un r, isNan x = false := by
  intro x hx
  unfold writtenVector at hx
  split at hx
  · obtain ⟨y, hy, rfl⟩ := List.mem_map.mp hx
    exact mul_not_nan (h.2 y hy) h.1
  · exact (h.2 x hx).notNan

variable {T V S : Type} [Vocab V] [Storage S F32]

/-- Specification: what is read back for a float: every NaN becomes the quiet NaN, everything else stays. -/
def reread (x : F32) : F32 := if isNan x then 0x7fc00000 else x

theorem reread_eq {x : F32} (h : isNan x = false) : reread x = x := by simp [reread, h]

theorem reread_print (x : F32) :
    FloatText.print (reread x) = FloatText.print x ∧ FloatText.Faithful (reread x) := by
  by_cases h : isNan x = true
  · have hr : reread x = 0x7fc00000 := by simp [reread, h]
    rw [hr]
    refine ⟨?_, printF32_token _, c79_roundtrip _⟩
    exact (c79_special.2.2.2.2 _ (by decide)).trans (c79_special.2.2.2.2 x h).symm
  · have h' : isNan x = false := by simpa using h
    rw [reread_eq h']
    exact ⟨rfl, faithful h'⟩

theorem map_reread {v : List F32} (h : ∀ x ∈ v, isNan x = false) : v.map reread = v := by
  conv => rhs; rw [← List.map_id v]
  exact List.map_congr_left fun x hx => reread_eq (h x hx)

/-- **C79** (text files, all components). Text files are read back whatever their components are: each component bit by bit,
except that a NaN becomes the quiet NaN. -/
theorem c79_text_all {T' : Type} (e : Embeddings T V S F32) (rs : List (Str × List F32 × F32)) (h : e.iterWithNorms = .ok rs)
    (hne : rs ≠ []) (hnd : (rs.map (·.1)).Nodup) (hdims : ∀ r ∈ rs, r.2.1.length = e.dims)
    (hwords : ∀ r ∈ rs, IsToken r.1) (un lossy : Bool) :
    (e.writeText un).Good ∧
    ∃ e' : Embeddings T' SimpleVocab (NdArray F32) F32,
      Embeddings.readTextRaw lossy (e.writeText un).bytes 0 = .ok e' ∧
      SimpleVocab.new (rs.map (·.1)) = .ok e'.vocab ∧
      e'.storage.inner = ⟨e.dims, rs.map fun r => (if un then r.2.1.map (mul · r.2.2) else r.2.1).map reread⟩ ∧
      e'.norms = none ∧ e'.metadata = none :=
  c49_text_as e rs h hne hnd hdims hwords un lossy reread fun _ _ x _ => reread_print x

/-- **C79** (text files with a first line, all components). -/
theorem c79_text_dims_all {T' : Type} (e : Embeddings T V S F32) (rs : List (Str × List F32 × F32))
    (h : e.iterWithNorms = .ok rs) (hlen : Vocab.wordsLen e.vocab = rs.length)
    (hne : rs ≠ []) (hnd : (rs.map (·.1)).Nodup) (hdims : ∀ r ∈ rs, r.2.1.length = e.dims)
    (hwords : ∀ r ∈ rs, IsToken r.1) (un lossy : Bool)
    (hmem : 4 * (rs.length * e.dims) ≤ isizeMax) (hmem' : 24 * rs.length ≤ isizeMax) :
    (e.writeTextDims un).Good ∧
    ∃ e' : Embeddings T' SimpleVocab (NdArray F32) F32,
      Embeddings.readTextDimsRaw lossy (e.writeTextDims un).bytes 0 = .ok e' ∧
      SimpleVocab.new (rs.map (·.1)) = .ok e'.vocab ∧
      e'.storage.inner = ⟨e.dims, rs.map fun r => (if un then r.2.1.map (mul · r.2.2) else r.2.1).map reread⟩ ∧
      e'.norms = none ∧ e'.metadata = none :=
  c49_text_dims_as e rs h hlen hne hnd hdims hwords un lossy reread (fun _ _ x _ => reread_print x) hmem hmem'

/-- **C79** (text files). Text files with finite components are read back bit by bit: with the stored components, or with the products
of components and norms (infinities included, if products overflow). -/
theorem c79_text {T' : Type} (e : Embeddings T V S F32) (rs : List (Str × List F32 × F32)) (h : e.iterWithNorms = .ok rs)
    (hne : rs ≠ []) (hnd : (rs.map (·.1)).Nodup) (hdims : ∀ r ∈ rs, r.2.1.length = e.dims)
    (hwords : ∀ r ∈ rs, IsToken r.1) (un lossy : Bool) (hfin : ∀ r ∈ rs, Finite r.2.2 ∧ ∀ x ∈ r.2.1, Finite x) :
    (e.writeText un).Good ∧
    ∃ e' : Embeddings T' SimpleVocab (NdArray F32) F32,
      Embeddings.readTextRaw lossy (e.writeText un).bytes 0 = .ok e' ∧
      SimpleVocab.new (rs.map (·.1)) = .ok e'.vocab ∧
      e'.storage.inner = ⟨e.dims, rs.map fun r => if un then r.2.1.map (mul · r.2.2) else r.2.1⟩ ∧
      e'.norms = none ∧ e'.metadata = none :=
  c49_text e rs h hne hnd hdims hwords un lossy fun r hr x hx => faithful (written_not_nan (hfin r hr) x hx)

/-- **C79** (text files with a first line). -/
theorem c79_text_dims {T' : Type} (e : Embeddings T V S F32) (rs : List (Str × List F32 × F32))
    (h : e.iterWithNorms = .ok rs) (hlen : Vocab.wordsLen e.vocab = rs.length)
    (hne : rs ≠ []) (hnd : (rs.map (·.1)).Nodup) (hdims : ∀ r ∈ rs, r.2.1.length = e.dims)
    (hwords : ∀ r ∈ rs, IsToken r.1) (un lossy : Bool) (hfin : ∀ r ∈ rs, Finite r.2.2 ∧ ∀ x ∈ r.2.1, Finite x)
    (hmem : 4 * (rs.length * e.dims) ≤ isizeMax) (hmem' : 24 * rs.length ≤ isizeMax) :
    (e.writeTextDims un).Good ∧
    ∃ e' : Embeddings T' SimpleVocab (NdArray F32) F32,
      Embeddings.readTextDimsRaw lossy (e.writeTextDims un).bytes 0 = .ok e' ∧
      SimpleVocab.new (rs.map (·.1)) = .ok e'.vocab ∧
      e'.storage.inner = ⟨e.dims, rs.map fun r => if un then r.2.1.map (mul · r.2.2) else r.2.1⟩ ∧
      e'.norms = none ∧ e'.metadata = none :=
  c49_text_dims e rs h hlen hne hnd hdims hwords un lossy (fun r hr x hx => faithful (written_not_nan (hfin r hr) x hx)) hmem hmem'

/-- **C79** (floret files). Floret files are read back bit by bit if no component is a NaN. -/
theorem c79_floret {T' : Type} (e : Embeddings T FloretSubwordVocab (NdArray F32) F32) (nb nh : Nat) (seed : UInt32)
    (ix : FloretIndexer) (hix : FloretIndexer.new nb nh seed = .ok ix) (ws : List Str) (m M : Nat) (bow eow : Str)
    (hv : SubwordVocab.newWithBoundaries ws m M ix bow eow = .ok e.vocab)
    (k : Nat) (rows : List (List F32)) (hst : e.storage.inner = ⟨k, rows⟩) (hrows : rows.length = ws.length + nb)
    (hk : ∀ r ∈ rows, r.length = k) (hk0 : 0 < k) (hmM : m ≤ M) (hM : M < 2 ^ 32)
    (hbow : ' ' ∉ bow) (heow : '\n' ∉ eow) (hmem : 4 * (nb * k) ≤ isizeMax)
    (hval : ∀ r ∈ rows.drop ws.length, ∀ x ∈ r, isNan x = false) :
    e.writeFloret.Good ∧
    ∃ e' : Embeddings T' FloretSubwordVocab (NdArray F32) F32,
      Embeddings.readFloret e.writeFloret.bytes 0 = .ok e' ∧
      SubwordVocab.newWithBoundaries [] m M ix bow eow = .ok e'.vocab ∧
      e'.storage.inner = ⟨k, rows.drop ws.length⟩ ∧ e'.norms = none ∧ e'.metadata = none ∧
      (ws = [] → e'.vocab = e.vocab ∧ e'.storage.inner = e.storage.inner) :=
  c51_roundtrip e nb nh seed ix hix ws m M bow eow hv k rows hst hrows hk hk0 hmM hM hbow heow hmem
    fun r hr x hx => faithful (hval r hr x hx)

/-- **C79** (floret files, all components). The same for floret files: a NaN becomes the quiet NaN, everything else stays. -/
theorem c79_floret_all {T' : Type} (e : Embeddings T FloretSubwordVocab (NdArray F32) F32) (nb nh : Nat) (seed : UInt32)
    (ix : FloretIndexer) (hix : FloretIndexer.new nb nh seed = .ok ix) (ws : List Str) (m M : Nat) (bow eow : Str)
    (hv : SubwordVocab.newWithBoundaries ws m M ix bow eow = .ok e.vocab)
    (k : Nat) (rows : List (List F32)) (hst : e.storage.inner = ⟨k, rows⟩) (hrows : rows.length = ws.length + nb)
    (hk : ∀ r ∈ rows, r.length = k) (hk0 : 0 < k) (hmM : m ≤ M) (hM : M < 2 ^ 32)
    (hbow : ' ' ∉ bow) (heow : '\n' ∉ eow) (hmem : 4 * (nb * k) ≤ isizeMax) :
    e.writeFloret.Good ∧
    ∃ e' : Embeddings T' FloretSubwordVocab (NdArray F32) F32,
      Embeddings.readFloret e.writeFloret.bytes 0 = .ok e' ∧
      SubwordVocab.newWithBoundaries [] m M ix bow eow = .ok e'.vocab ∧
      e'.storage.inner = ⟨k, (rows.drop ws.length).map (·.map reread)⟩ ∧ e'.norms = none ∧ e'.metadata = none := by
  let e2 : Embeddings T FloretSubwordVocab (NdArray F32) F32 := { e with storage := ⟨⟨k, rows.map (·.map reread)⟩⟩ }
  obtain ⟨g1, e', g2, g3, g4, g5, g6, -⟩ := c51_roundtrip (T' := T') e2 nb nh seed ix hix ws m M bow eow hv k
    (rows.map (·.map reread)) rfl (by simpa using hrows)
    (by
      intro r hr
      obtain ⟨r', hr', rfl⟩ := List.mem_map.mp hr
      simpa using hk r' hr') hk0 hmM hM hbow heow hmem
    (by
      intro r hr x hx
      obtain ⟨r', hr', rfl⟩ := List.mem_map.mp (List.mem_of_mem_drop hr)
      obtain ⟨y, -, rfl⟩ := List.mem_map.mp hx
      exact (reread_print y).2)
  have hs : e.storage = ⟨⟨k, rows⟩⟩ := by cases hs : e.storage; rw [hs] at hst; exact congrArg NdArray.mk hst
  have he : e2.writeFloret = e.writeFloret := by
    have h1 : e2.floretHeadLine = e.floretHeadLine := by
      unfold Embeddings.floretHeadLine Embeddings.dims
      rw [hs]
      rfl
    have h2 : ∀ n, W.each Embeddings.floretRowLine ((rows.map (·.map reread)).drop n).zipIdx =
        W.each Embeddings.floretRowLine (rows.drop n).zipIdx := by
      intro n
      rw [← List.map_drop, List.zipIdx_map]
      generalize (rows.drop n).zipIdx = ps
      induction ps with
      | nil => rfl
      | cons p ps ih =>
        simp only [List.map_cons, W.each]
        rw [ih]
        congr 1
        show W.emit (utf8 (printNat p.2 ++ ' ' :: Embeddings.joinFloats (p.1.map reread)) ++ [10]) = W.emit _
        rw [joinFloats_map fun x _ => (reread_print x).1]
    unfold Embeddings.writeFloret
    rw [h1]
    show _ ++ W.done (Res.assert (Vocab.wordsLen e.vocab ≤ (rows.map (·.map reread)).length)) ++
      W.each Embeddings.floretRowLine ((rows.map (·.map reread)).drop (Vocab.wordsLen e.vocab)).zipIdx = _
    rw [h2, hs, List.length_map]
    rfl
  rw [he] at g1 g2
  exact ⟨g1, e', g2, g3, by rw [g4, List.map_drop], g5, g6⟩

end

/-! ## Examples -/

example : printF32 0x3dcccccd = "0.1".toList ∧ printF32 0xc0490fdb = "-3.1415927".toList ∧
    printF32 0x4b800000 = "16777216".toList ∧ printF32 0x501502f9 = "10000000000".toList ∧
    printF32 0x00000001 = ("0." ++ String.ofList (List.replicate 44 '0') ++ "1").toList := by
  refine ⟨?_, ?_, ?_, ?_, ?_⟩ <;> decide +kernel

example : parseF32 "0.1".toList = some 0x3dcccccd ∧ parseF32 "+.5".toList = some 0x3f000000 ∧ parseF32 "-5.e-1".toList = some 0xbf000000 ∧
    parseF32 "16777217".toList = some 0x4b800000 ∧ parseF32 "1E39".toList = some 0x7f800000 ∧ parseF32 "-1e-999999".toList = some 0x80000000 ∧
    parseF32 "-iNf".toList = some 0xff800000 ∧ parseF32 "1e".toList = none ∧ parseF32 ".".toList = none ∧ parseF32 "".toList = none ∧
    parseF32 " 1".toList = none ∧ parseF32 "1_0".toList = none ∧ parseF32 "--1".toList = none ∧ parseF32 "0x10".toList = none := by
  refine ⟨?_, ?_, ?_, ?_, ?_, ?_, ?_, ?_, ?_, ?_, ?_, ?_, ?_, ?_⟩ <;> decide +kernel

/-- The hypotheses of `c79_rounded`: `-2.50e3` is `250 * 10^(3 - 2)`. -/
example : Numeral "2.50e3".toList 250 2 3 :=
  ⟨['2', '.', '5', '0'], ['e', '3'], rfl,
    .point ['2'] ['5', '0'] (.snoc (s := ['2', '5']) 0 (.snoc (s := ['2']) 5 (.one 2 (by omega)) (by omega)) (by omega)),
    .unsigned (.inl rfl) (.one 3 (by omega))⟩

/-- The hypotheses of `c79_printed` for the smallest and the largest positive float. -/
example : Finite 1 ∧ 0 < f32Mag 1 ∧ Finite 0x7f7fffff ∧ 0 < f32Mag 0x7f7fffff := by unfold Finite; decide

section
attribute [local instance] scalar floatText

/-- The hypotheses of the theorems on files: `0.1` and `-0` with norm 2, and a second word. -/
example : ∃ e : Embeddings Str SimpleVocab (NdArray F32) F32,
    e.iterWithNorms = .ok [(['a'], [0x3dcccccd, 0x80000000], 0x40000000), (['b'], [0x3f800000, 1], 0x3f800000)] ∧
    (e.writeText false).bytes = utf8 ("a 0.1 -0\nb 1 0." ++ String.ofList (List.replicate 44 '0') ++ "1\n").toList ∧
    (e.writeText true).bytes = utf8 ("a 0.2 -0\nb 1 0." ++ String.ofList (List.replicate 44 '0') ++ "1\n").toList := by
  refine ⟨⟨none, ⟨⟨2, [[0x3dcccccd, 0x80000000], [0x3f800000, 1]]⟩⟩, ⟨indexMap [['a'], ['b']], [['a'], ['b']]⟩,
    some ⟨[0x40000000, 0x3f800000]⟩⟩, ?_, ?_, ?_⟩ <;> decide +kernel

/-- The embeddings of that case. -/
def exampleNumbers : Embeddings Str SimpleVocab (NdArray F32) F32 :=
  ⟨none, ⟨⟨2, [[0x3dcccccd, 0x80000000], [0x3f800000, 1]]⟩⟩, ⟨indexMap [['a'], ['b']], [['a'], ['b']]⟩,
    some ⟨[0x40000000, 0x3f800000]⟩⟩

theorem exampleNumbers_rows : exampleNumbers.iterWithNorms =
    .ok [(['a'], [0x3dcccccd, 0x80000000], 0x40000000), (['b'], [0x3f800000, 1], 0x3f800000)] := by decide +kernel

/-- `c79_text` and `c79_text_dims` applied to them. -/
example := c79_text (T' := Str) exampleNumbers _ exampleNumbers_rows (by decide) (by decide) (by decide)
  (by unfold IsToken; decide) true false (by unfold Finite; decide)
example := c79_text_dims (T' := Str) exampleNumbers _ exampleNumbers_rows rfl (by decide) (by decide) (by decide)
  (by unfold IsToken; decide) true false (by unfold Finite; decide) (by decide) (by decide)

/-- `c79_text_all` and `c79_text_dims_all` applied to embeddings with an infinity and a NaN that is not the quiet one. -/
example := c79_text_all (T' := Str) (⟨none, ⟨⟨2, [[0x7f800000, 0xffc00001]]⟩⟩, ⟨indexMap [['a']], [['a']]⟩, none⟩ :
    Embeddings Str SimpleVocab (NdArray F32) F32) [(['a'], [0x7f800000, 0xffc00001], 0x3f800000)] (by decide +kernel) (by decide)
  (by decide) (by decide) (by unfold IsToken; decide) false false
example := c79_text_dims_all (T' := Str) (⟨none, ⟨⟨2, [[0x7f800000, 0xffc00001]]⟩⟩, ⟨indexMap [['a']], [['a']]⟩, none⟩ :
    Embeddings Str SimpleVocab (NdArray F32) F32) [(['a'], [0x7f800000, 0xffc00001], 0x3f800000)] (by decide +kernel) rfl (by decide)
  (by decide) (by decide) (by unfold IsToken; decide) false false (by decide) (by decide)

/-- `c79_floret_all` applied to buckets with an infinity and such a NaN. -/
example := c79_floret_all (T' := Str) (⟨none, ⟨⟨2, [[1, 2], [0xff800000, 0x80000000], [0x7f800001, 1]]⟩⟩,
    ⟨['<'], ['>'], ⟨2, 7, 2⟩, indexMap [['a']], [['a']], 2, 3⟩, none⟩ : Embeddings Str FloretSubwordVocab (NdArray F32) F32)
  2 2 7 _ rfl [['a']] 2 3 ['<'] ['>'] rfl 2 _ rfl rfl (by decide) (by decide) (by decide) (by decide) (by decide)
  (by decide) (by decide)

/-- `c79_floret` applied to a vocabulary with one word and two buckets. -/
example := c79_floret (T' := Str) (⟨none, ⟨⟨2, [[1, 2], [0x3dcccccd, 0x80000000], [0x3f800000, 1]]⟩⟩,
    ⟨['<'], ['>'], ⟨2, 7, 2⟩, indexMap [['a']], [['a']], 2, 3⟩, none⟩ : Embeddings Str FloretSubwordVocab (NdArray F32) F32)
  2 2 7 _ rfl [['a']] 2 3 ['<'] ['>'] rfl 2 _ rfl rfl (by decide) (by decide) (by decide) (by decide) (by decide)
  (by decide) (by decide) (by decide)

end

end Ieee
end FF
