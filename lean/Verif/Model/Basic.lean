/-!
# Basic vocabulary of the model

Outcomes, bytes, strings, little-endian integers, UTF-8.
Everything here models the language/std level, not a particular function of the crate; the users are
cited next to the definitions.
-/

namespace FF

/-- A byte string. Stands for `Vec<u8>`/`[u8]`, e.g. src/chunks/vocab/mod.rs:85. -/
abbrev Bytes := List UInt8

/-- A Rust `String`/`&str`: a sequence of Unicode scalar values (its bytes are `utf8 s`). E.g.
src/chunks/vocab/simple.rs:13-14. -/
abbrev Str := List Char

/-- Error values. Models `Error` of src/error.rs:13-60; the message texts are dropped, only the variant is kept. `io`
stands for `Read` and `Write`, which wrap an `std::io::Error`; an error with more context (`Context`, :15-20) is the error it
wraps. -/
inductive Err where
  | io
  | format
  | unknownChunk
  | overflow
  | shape
  | conversion
  | ngramConversion
  | quantization
deriving DecidableEq, Repr

/-- Outcome of running a Rust function that may fail or panic. Panics (src: `assert!`, `expect`, `unwrap`,
indexing, division by zero, capacity overflow) are explicit values. `ok` and `err` are the two cases of
`Result`, src/error.rs:9. -/
inductive Res (α : Type u) where
  | ok (a : α)
  | err (e : Err)
  | panic
deriving DecidableEq, Repr

namespace Res

/-- Sequencing: Rust's `?` and panic propagation. E.g. src/chunks/vocab/mod.rs:99. -/
def bind {α : Type u} {β : Type v} : Res α → (α → Res β) → Res β
  | ok a, f => f a
  | err e, _ => err e
  | panic, _ => panic

/-- Sequencing with `?`, e.g. src/compat/fasttext/io.rs:164-168; panics end everything. -/
instance : Monad Res where
  pure := ok
  bind := bind

/-- Apply a function to a successful outcome. E.g. `Result::map` and the final `Ok(..)` of a function,
src/chunks/metadata.rs:70-75. -/
def map {α : Type u} {β : Type v} (f : α → β) : Res α → Res β
  | ok a => ok (f a)
  | err e => err e
  | panic => panic

@[simp] theorem ok_bind {α β : Type u} (a : α) (f : α → Res β) : (ok a >>= f) = f a := rfl
@[simp] theorem err_bind {α β : Type u} (e) (f : α → Res β) : ((err e : Res α) >>= f) = err e := rfl
@[simp] theorem panic_bind {α β : Type u} (f : α → Res β) : ((panic : Res α) >>= f) = panic := rfl
@[simp] theorem pure_eq {α : Type u} (a : α) : (pure a : Res α) = ok a := rfl
@[simp] theorem bind_eq {α β : Type u} (x : Res α) (f : α → Res β) : x.bind f = (x >>= f) := rfl
@[simp] theorem map_ok {α : Type u} {β : Type v} (f : α → β) (a) : (ok a).map f = ok (f a) := rfl
@[simp] theorem map_err {α : Type u} {β : Type v} (f : α → β) (e) : (err e : Res α).map f = err e := rfl
@[simp] theorem map_panic {α : Type u} {β : Type v} (f : α → β) : (panic : Res α).map f = panic := rfl

theorem bind_eq_ok {α β : Type u} {x : Res α} {f : α → Res β} {b : β} :
    (x >>= f) = ok b ↔ ∃ a, x = ok a ∧ f a = ok b := by
  cases x <;> simp

theorem bind_assoc' {α β γ : Type u} (x : Res α) (f : α → Res β) (g : β → Res γ) :
    ((x >>= f) >>= g) = (x >>= fun a => f a >>= g) := by
  cases x <;> simp

/-- The usual laws of sequencing (no counterpart in the source; used for e.g. src/compat/fasttext/io.rs:164-168). -/
instance : LawfulMonad Res := LawfulMonad.mk'
  (id_map := by intro α x; cases x <;> rfl)
  (pure_bind := by intros; rfl)
  (bind_assoc := by intro α β γ x f g; cases x <;> rfl)

/-- `assert!(c)`. Users: src/chunks/vocab/simple.rs:27-31, src/chunks/vocab/subword.rs:87-103,
src/subword.rs:317-321. -/
def assert (c : Bool) : Res Unit := if c then ok () else panic

/-- `.ok_or(e)?`/`.ok_or_else`. User: src/compat/text.rs:230-232; also for `map_err` on the result of a pure
function, e.g. src/chunks/metadata.rs:66-68. -/
def ofOption {α : Type u} (e : Err) : Option α → Res α
  | some a => ok a
  | none => err e

/-- `.expect(..)`/`.unwrap()` on an `Option`. Users: src/similarity.rs:316, :322; also for indexing that panics
when out of bounds, e.g. src/similarity.rs:307. -/
def unwrap {α : Type u} : Option α → Res α
  | some a => ok a
  | none => panic

@[simp] theorem ofOption_some {α : Type u} (e) (a : α) : ofOption e (some a) = ok a := rfl
@[simp] theorem unwrap_some {α : Type u} (a : α) : unwrap (some a) = ok a := rfl
@[simp] theorem unwrap_none {α : Type u} : unwrap (none : Option α) = panic := rfl
@[simp] theorem assert_true : assert true = ok () := rfl
@[simp] theorem assert_false : assert false = panic := rfl

end Res

/-- Largest value of Rust's `isize` on a 64-bit target: no allocation may be larger. Allocations: e.g.
src/chunks/vocab/mod.rs:85, :97, src/compat/text.rs:198-199. -/
def isizeMax : Nat := 2 ^ 63 - 1

/-- Largest value of Rust's `usize`/`u64` on a 64-bit target. E.g. the numbers of src/util.rs:88-99. -/
def usizeMax : Nat := 2 ^ 64 - 1

/-! ## Little-endian integers (byteorder's `LittleEndian`) -/

/-- The `k`-byte little-endian encoding of `v as uN`, i.e. of `v % 256^k`. Models byteorder's
`write_u32`/`write_u64` (used throughout src/chunks), including the truncation of a preceding
`as u32`/`as u64` cast. -/
def leBytes : Nat → Nat → Bytes
  | 0, _ => []
  | k + 1, v => UInt8.ofNat (v % 256) :: leBytes k (v / 256)

/-- The value of little-endian bytes. Models byteorder's `read_u32`/`read_u64`. Users: e.g.
src/chunks/io.rs:240-253. -/
def leVal : Bytes → Nat
  | [] => 0
  | b :: bs => b.toNat + 256 * leVal bs

@[simp] theorem leBytes_length (k v : Nat) : (leBytes k v).length = k := by
  induction k generalizing v with
  | zero => rfl
  | succ k ih => simp [leBytes, ih]

theorem leVal_leBytes (k v : Nat) : leVal (leBytes k v) = v % 256 ^ k := by
  induction k generalizing v with
  | zero => simp [leBytes, leVal, Nat.mod_one]
  | succ k ih =>
    simp only [leBytes, leVal, ih]
    have h1 : (UInt8.ofNat (v % 256)).toNat = v % 256 := by
      rw [UInt8.toNat_ofNat']; omega
    rw [h1, Nat.pow_succ, Nat.mul_comm (256 ^ k) 256, Nat.mod_mul]

theorem leVal_leBytes_of_lt {k v : Nat} (h : v < 256 ^ k) : leVal (leBytes k v) = v := by
  rw [leVal_leBytes, Nat.mod_eq_of_lt h]

theorem leVal_lt (bs : Bytes) : leVal bs < 256 ^ bs.length := by
  induction bs with
  | nil => simp [leVal]
  | cons b bs ih =>
    have := b.toNat_lt
    simp only [leVal, List.length_cons, Nat.pow_succ]
    omega

theorem leBytes_leVal (bs : Bytes) : leBytes bs.length (leVal bs) = bs := by
  induction bs with
  | nil => rfl
  | cons b bs ih =>
    have hb := b.toNat_lt
    simp only [List.length_cons, leBytes, leVal]
    have h1 : (b.toNat + 256 * leVal bs) % 256 = b.toNat := by omega
    have h2 : (b.toNat + 256 * leVal bs) / 256 = leVal bs := by omega
    rw [h1, h2, ih]; simp

/-! ## Floats as bit patterns -/

/-- An `f32` in a file: its bit pattern. E.g. src/chunks/norms.rs:79-81. -/
abbrev F32 := UInt32

/-- `write_f32::<LittleEndian>`. Users: e.g. src/chunks/norms.rs:137, src/chunks/storage/array.rs:265,
src/compat/word2vec.rs:157. -/
def f32Bytes (x : F32) : Bytes := leBytes 4 x.toNat

/-- One `f32` decoded from four bytes. Part of `read_f32_into`, e.g. src/chunks/norms.rs:80,
src/chunks/storage/array.rs:354. -/
def f32Val (bs : Bytes) : F32 := UInt32.ofNat (leVal bs)

@[simp] theorem f32Bytes_length (x : F32) : (f32Bytes x).length = 4 := by simp [f32Bytes]

@[simp] theorem f32Val_f32Bytes (x : F32) : f32Val (f32Bytes x) = x := by
  unfold f32Val f32Bytes
  rw [leVal_leBytes_of_lt (by have := x.toNat_lt; simpa using this)]
  simp

/-! ## UTF-8 -/

/-- The UTF-8 bytes of a string (`str::as_bytes`). Users: e.g. src/chunks/vocab/mod.rs:113,
src/chunks/vocab/subword.rs:746, src/chunks/metadata.rs:102. -/
def utf8 (s : Str) : Bytes := s.flatMap String.utf8EncodeChar

/-- Decode the first character of a non-empty byte string. Part of `String::from_utf8`
(src/chunks/vocab/mod.rs:88) and of `String::from_utf8_lossy` (src/util.rs:109). -/
def utf8Head (bs : Bytes) : Option Char := (ByteArray.mk bs.toArray).utf8DecodeChar? 0

theorem utf8Head_append (c : Char) (rest : Bytes) :
    utf8Head (String.utf8EncodeChar c ++ rest) = some c := by
  have h := @ByteArray.utf8DecodeChar?_utf8EncodeChar_append ⟨rest.toArray⟩ c
  rw [utf8Head, ← h]
  congr 1
  apply ByteArray.ext
  simp

theorem utf8Head_some {bs : Bytes} {c : Char} (h : utf8Head bs = some c) :
    bs = String.utf8EncodeChar c ++ bs.drop c.utf8Size := by
  have h1 := ByteArray.eq_of_utf8DecodeChar?_eq_some h
  have h2 := congrArg (fun b : ByteArray => b.data.toList) h1
  simp at h2
  rwa [List.take_of_length_le (by simp [ByteArray.size])] at h2

/-- Decoder loop with fuel (`fuel` = number of bytes is always enough since each character takes at least one
byte; the fuel makes the recursion structural). Part of `String::from_utf8`, e.g. src/chunks/vocab/mod.rs:88. -/
def utf8DecodeF : Nat → Bytes → Option Str
  | _, [] => some []
  | 0, _ :: _ => none
  | fuel + 1, bs =>
    match utf8Head bs with
    | none => none
    | some c => (utf8DecodeF fuel (bs.drop c.utf8Size)).map (c :: ·)

/-- `String::from_utf8`/`str::from_utf8`: decode a whole byte string, `none` if it is not valid UTF-8. Users:
src/chunks/vocab/mod.rs:88, src/chunks/vocab/subword.rs:703, src/chunks/metadata.rs:66, src/util.rs:111. -/
def utf8Decode (bs : Bytes) : Option Str := utf8DecodeF bs.length bs

@[simp] theorem utf8_nil : utf8 [] = [] := rfl
@[simp] theorem utf8_cons (c : Char) (s : Str) : utf8 (c :: s) = String.utf8EncodeChar c ++ utf8 s := by
  simp [utf8]
@[simp] theorem utf8_append (s t : Str) : utf8 (s ++ t) = utf8 s ++ utf8 t := by
  simp [utf8]

theorem utf8DecodeF_utf8 (s : Str) (fuel : Nat) (h : (utf8 s).length ≤ fuel) :
    utf8DecodeF fuel (utf8 s) = some s := by
  induction s generalizing fuel with
  | nil => simp [utf8DecodeF]
  | cons c s ih =>
    have hp := c.utf8Size_pos
    have hl : (String.utf8EncodeChar c).length = c.utf8Size := by simp
    simp only [utf8_cons, List.length_append, hl] at h ⊢
    cases fuel with
    | zero => omega
    | succ fuel =>
      have hne : String.utf8EncodeChar c ++ utf8 s ≠ [] := by
        intro h0; have := congrArg List.length h0; simp at this; omega
      obtain ⟨b, bs, hb⟩ : ∃ b bs, String.utf8EncodeChar c ++ utf8 s = b :: bs := by
        cases h0 : String.utf8EncodeChar c ++ utf8 s with
        | nil => exact absurd h0 hne
        | cons b bs => exact ⟨b, bs, rfl⟩
      have hd : (String.utf8EncodeChar c ++ utf8 s).drop c.utf8Size = utf8 s := by
        rw [← hl]; simp
      have hh := utf8Head_append c (utf8 s)
      rw [hb] at hd hh ⊢
      simp only [utf8DecodeF, hh, hd]
      rw [ih fuel (by omega)]; rfl

/-- Decoding the bytes of a string gives the string back. -/
@[simp] theorem utf8Decode_utf8 (s : Str) : utf8Decode (utf8 s) = some s :=
  utf8DecodeF_utf8 s _ (Nat.le_refl _)

theorem utf8_utf8DecodeF (fuel : Nat) (bs : Bytes) (s : Str) (h : utf8DecodeF fuel bs = some s) :
    utf8 s = bs := by
  induction fuel generalizing bs s with
  | zero =>
    cases bs with
    | nil => simp [utf8DecodeF] at h; subst h; rfl
    | cons b bs => simp [utf8DecodeF] at h
  | succ fuel ih =>
    cases bs with
    | nil => simp [utf8DecodeF] at h; subst h; rfl
    | cons b bs =>
      simp only [utf8DecodeF] at h
      cases hh : utf8Head (b :: bs) with
      | none => simp [hh] at h
      | some c =>
        simp only [hh, Option.map_eq_some_iff] at h
        obtain ⟨t, ht, rfl⟩ := h
        rw [utf8_cons, ih _ _ ht]
        exact (utf8Head_some hh).symm

/-- Only the bytes of a string decode to that string. -/
theorem utf8_of_utf8Decode {bs : Bytes} {s : Str} (h : utf8Decode bs = some s) : utf8 s = bs :=
  utf8_utf8DecodeF _ _ _ h

theorem utf8_injective {s t : Str} (h : utf8 s = utf8 t) : s = t := by
  have := utf8Decode_utf8 s
  rw [h, utf8Decode_utf8] at this
  exact (Option.some.inj this).symm

/-- Bytes below 128 occur in the encoding of a character only if that character is the ASCII
character with this code. -/
theorem mem_utf8EncodeChar_ascii {c : Char} {b : UInt8} (h : b ∈ String.utf8EncodeChar c)
    (hb : b.toNat < 128) : c.toNat = b.toNat ∧ String.utf8EncodeChar c = [b] := by
  unfold String.utf8EncodeChar at *
  simp only [] at *
  have key : ∀ n : Nat, 128 ≤ n → n < 256 → b = UInt8.ofNat n → False := by
    intro n h1 h2 h3
    rw [h3, UInt8.toNat_ofNat'] at hb; omega
  split at h
  · rename_i hv
    simp only [List.mem_singleton] at h
    subst h
    rw [UInt8.toNat_ofNat', if_pos hv]
    refine ⟨?_, rfl⟩
    show c.val.toNat = _
    omega
  · exfalso
    split at h
    · simp only [List.mem_cons, List.not_mem_nil, or_false] at h
      rcases h with h | h <;> exact key _ (by omega) (by omega) h
    · split at h <;> simp only [List.mem_cons, List.not_mem_nil, or_false] at h
      · rcases h with h | h | h <;> exact key _ (by omega) (by omega) h
      · rcases h with h | h | h | h <;> exact key _ (by omega) (by omega) h

theorem mem_utf8_ascii {s : Str} {b : UInt8} (h : b ∈ utf8 s) (hb : b.toNat < 128) :
    ∃ c ∈ s, c.toNat = b.toNat := by
  simp only [utf8, List.mem_flatMap] at h
  obtain ⟨c, hc, hm⟩ := h
  exact ⟨c, hc, (mem_utf8EncodeChar_ascii hm hb).1⟩

theorem utf8EncodeChar_ascii {c : Char} (h : c.toNat < 128) :
    String.utf8EncodeChar c = [UInt8.ofNat c.toNat] := by
  unfold String.utf8EncodeChar
  have : c.val.toNat ≤ 0x7f := by show c.toNat ≤ 127; omega
  simp only [if_pos this]; rfl

theorem utf8_ne_nil {s : Str} (h : s ≠ []) : utf8 s ≠ [] := by
  cases s with
  | nil => exact absurd rfl h
  | cons c s =>
    intro h0
    have h1 := congrArg List.length h0
    have h2 := c.utf8Size_pos
    simp at h1; omega

/-- Number of UTF-8 bytes of a string (`str::len`). Users: e.g. src/chunks/vocab/mod.rs:110,
src/chunks/vocab/simple.rs:92, src/chunks/metadata.rs:86. -/
def strLen (s : Str) : Nat := (utf8 s).length

theorem strLen_eq_sum (s : Str) : strLen s = (s.map Char.utf8Size).sum := by
  induction s with
  | nil => rfl
  | cons c s ih => simp [strLen] at *; omega

example : utf8Decode [0xc3, 0xa9, 0x61] = some ['é', 'a'] := by decide +kernel
example : utf8Decode [0xc3] = none := by decide +kernel
example : utf8Decode [0xf0, 0x9f, 0x98, 0x80] = some ['😀'] := by decide +kernel

end FF
