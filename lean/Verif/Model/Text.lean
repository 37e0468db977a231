import Verif.Model.Embeddings

/-!
# Text input and output (std), `read_string`/`read_number` (src/util.rs)
-/

namespace FF

open Rd

/-! ## std: UTF-8 with replacement characters -/

/-- `U+FFFD`. Inserted by `String::from_utf8_lossy`, src/util.rs:109, src/compat/text.rs:220. -/
def replacementChar : Char := Char.ofNat 0xFFFD

/-- A UTF-8 continuation byte. Part of `String::from_utf8_lossy`, src/util.rs:109. -/
def isCont (b : UInt8) : Bool := 0x80 ≤ b && b ≤ 0xBF

/-- Whether a second byte may follow this first byte of a three- or four-byte sequence (core::str::lossy,
`Utf8Chunks::next`). Part of `String::from_utf8_lossy`, src/util.rs:109. -/
def validSecond (a b : UInt8) : Bool :=
  (a == 0xE0 && 0xA0 ≤ b && b ≤ 0xBF) ||
  (0xE1 ≤ a && a ≤ 0xEC && isCont b) ||
  (a == 0xED && 0x80 ≤ b && b ≤ 0x9F) ||
  (0xEE ≤ a && a ≤ 0xEF && isCont b) ||
  (a == 0xF0 && 0x90 ≤ b && b ≤ 0xBF) ||
  (0xF1 ≤ a && a ≤ 0xF3 && isCont b) ||
  (a == 0xF4 && 0x80 ≤ b && b ≤ 0x8F)

/-- Number of bytes that are replaced by one `U+FFFD` when the data does not start with a valid character: the
first byte and the continuation bytes that were acceptable so far (core::str::lossy, `Utf8Chunks::next`). Part
of `String::from_utf8_lossy`, src/util.rs:109. -/
def invalidLen : Bytes → Nat
  | a :: b :: c :: _ =>
    if validSecond a b then (if 0xF0 ≤ a && isCont c then 3 else 2) else 1
  | [a, b] => if validSecond a b then 2 else 1
  | _ => 1

/-- Loop of `String::from_utf8_lossy`, with fuel (the number of bytes suffices). Part of
`String::from_utf8_lossy`, src/util.rs:109. -/
def utf8LossyF : Nat → Bytes → Str
  | _, [] => []
  | 0, _ :: _ => []
  | fuel + 1, bs =>
    match utf8Head bs with
    | some c => c :: utf8LossyF fuel (bs.drop c.utf8Size)
    | none => replacementChar :: utf8LossyF fuel (bs.drop (invalidLen bs))

/-- `String::from_utf8_lossy`, users: src/util.rs:109, src/compat/text.rs:220. -/
def utf8Lossy (bs : Bytes) : Str := utf8LossyF bs.length bs

/-! ## std: numbers -/

/-- Decimal digits of `n`, with fuel (`n + 1` suffices). Part of `Display`, see `printNat`
(src/compat/word2vec.rs:144). -/
def printNatF : Nat → Nat → Str
  | 0, _ => []
  | f + 1, n => (if n < 10 then [] else printNatF f (n / 10)) ++ [Char.ofNat (48 + n % 10)]

/-- `Display` of an unsigned integer, users: src/compat/word2vec.rs:144, src/compat/text.rs:342,
src/compat/floret/io.rs:115-126, :137. -/
def printNat (n : Nat) : Str := printNatF (n + 1) n

/-- An ASCII decimal digit. Part of `str::parse::<usize>`, src/util.rs:91. -/
def isDigitChar (c : Char) : Bool := 48 ≤ c.toNat && c.toNat ≤ 57

/-- The value of a string of digits. Part of `str::parse::<usize>`, src/util.rs:91. -/
def digitsVal (s : Str) : Nat := s.foldl (fun v c => v * 10 + (c.toNat - 48)) 0

/-- Remove an optional leading `+` (std's integer parser). Part of `str::parse::<usize>`, src/util.rs:91. -/
def stripPlus : Str → Str
  | [] => []
  | c :: t => if c = '+' then t else c :: t

/-- `str::parse::<usize>`: an optional `+`, then one or more digits; the value must fit into 64 bits. User:
src/util.rs:90-91. -/
def parseUsize (s : Str) : Option Nat :=
  let ds := stripPlus s
  if ds = [] ∨ ¬ds.all isDigitChar then none
  else if digitsVal ds ≤ usizeMax then some (digitsVal ds) else none

/-- `char::is_whitespace`: the Unicode property `White_Space`. User: `trim`, src/compat/word2vec.rs:98. -/
def isWhitespace (c : Char) : Bool :=
  let n := c.toNat
  (0x09 ≤ n && n ≤ 0x0D) || n == 0x20 || n == 0x85 || n == 0xA0 || n == 0x1680 ||
  (0x2000 ≤ n && n ≤ 0x200A) || n == 0x2028 || n == 0x2029 || n == 0x202F || n == 0x205F || n == 0x3000

/-- `char::is_ascii_whitespace`: space, tab, line feed, form feed, carriage return. Users:
src/compat/text.rs:227, :233, src/compat/floret/io.rs:69. -/
def isAsciiWs (c : Char) : Bool :=
  let n := c.toNat
  n == 0x20 || n == 0x09 || n == 0x0A || n == 0x0C || n == 0x0D

/-- Remove matching characters at both ends: `str::trim` (with `isWhitespace`), `str::trim_matches`. Users:
src/compat/word2vec.rs:98, src/compat/text.rs:233. -/
def trimBy (p : Char → Bool) (s : Str) : Str :=
  ((s.dropWhile p).reverse.dropWhile p).reverse

/-- `str::split(p)`. Users: src/compat/text.rs:227, src/compat/floret/io.rs:69. -/
def splitBy (p : Char → Bool) : Str → List Str
  | [] => [[]]
  | c :: cs =>
    if p c then [] :: splitBy p cs
    else
      match splitBy p cs with
      | w :: ws => (c :: w) :: ws
      | [] => [[c]]

/-- src/compat/text.rs:226-228, src/compat/floret/io.rs:68-70: the non-empty parts between ASCII white
space. -/
def parts (line : Str) : List Str := (splitBy isAsciiWs line).filter (· ≠ [])

/-- Printing (`Display`) and parsing of an `f32`. The texts are a parameter of the model: round-trip theorems
assume the law they need for the values at hand (`FloatText.Faithful`). Users: src/compat/text.rs:237, :308,
src/compat/floret/io.rs:74, :136. -/
class FloatText (F : Type) where
  print : F → Str
  parse : Str → Option F

/-- `f32` values of the model and bit patterns in files (`from_bits`, `to_bits`). Users:
src/compat/word2vec.rs:104, :157, src/compat/fasttext/io.rs:445, :484. -/
class FloatBits (F : Type) where
  ofBits : F32 → F
  toBits : F → F32

/-- Bit patterns are their own bit patterns (`read_f32`/`write_f32`, e.g. src/chunks/norms.rs:137). -/
instance : FloatBits F32 := ⟨id, id⟩

/-! ## std: `BufRead` -/

/-- The data up to and including the first delimiter, or all data. Part of `read_until`, src/util.rs:104. -/
def takeThrough (delim : UInt8) : Bytes → Bytes
  | [] => []
  | b :: bs => if b = delim then [b] else b :: takeThrough delim bs

/-- `BufRead::read_until`. User: src/util.rs:104. -/
def readUntil (delim : UInt8) : Rd Bytes := fun d pos =>
  let l := takeThrough delim (d.drop pos)
  .ok (l, pos + l.length)

/-- The lines of the remaining data with their terminators: repeated `read_until(b'\n', ..)` up to the call that
returns no data. With fuel (number of bytes plus one suffices). Users: src/compat/text.rs:205-218,
src/compat/floret/io.rs:65. -/
def rawLines : Nat → Bytes → List Bytes
  | 0, _ => []
  | fuel + 1, bs =>
    match takeThrough 10 bs with
    | [] => []
    | b :: l => (b :: l) :: rawLines fuel (bs.drop (b :: l).length)

/-- Remove the last byte if it is the given one. User: src/compat/text.rs:213-215. -/
def stripLast (b : UInt8) (l : Bytes) : Bytes := if l.getLast? = some b then l.dropLast else l

/-- src/compat/text.rs:205-218: the line buffers of the reading loop. -/
def textLines (bs : Bytes) : List Bytes := (rawLines (bs.length + 1) bs).map (stripLast 10)

/-- `BufRead::lines`, before UTF-8 validation: the terminator is a line feed, optionally preceded by a carriage
return (which is only removed together with a line feed). User: src/compat/floret/io.rs:65. -/
def bufLines (bs : Bytes) : List Bytes :=
  (rawLines (bs.length + 1) bs).map fun l =>
    if l.getLast? = some 10 then stripLast 13 l.dropLast else l

/-! ## src/util.rs -/

/-- src/util.rs:108-113, src/compat/text.rs:219-224: decode a token. -/
def decodeToken (lossy : Bool) (bs : Bytes) : Res Str :=
  if lossy then .ok (utf8Lossy bs) else Res.ofOption .format (utf8Decode bs)

/-- src/util.rs:101-116, `read_string`. The last byte is removed whether or not it is the delimiter. -/
def readToken (delim : UInt8) (lossy : Bool) : Rd Str := do
  let buf ← readUntil delim
  lift (decodeToken lossy buf.dropLast)

/-- src/util.rs:88-99, `read_number`. -/
def readNumber (delim : UInt8) : Rd Nat := do
  let field ← readToken delim false
  lift (Res.ofOption .format (parseUsize field))

/-! ## Iterating writers -/

/-- Continue with the value of a computation that may fail or panic. E.g. src/compat/fasttext/io.rs:143-147. -/
def W.ofRes {α : Type} : Res α → (α → W) → W
  | .ok a, f => f a
  | .err e, _ => W.done (.err e)
  | .panic, _ => W.done .panic

namespace Embeddings
variable {T V S F : Type} [Vocab V] [Storage S F] [Scalar F]

/-- The loop `for (word, embed_norm) in self.iter_with_norms()` of the writers, with the choice between
stored and unnormalised vectors: src/compat/word2vec.rs:147-154, src/compat/text.rs:301-306. -/
def eachRow (e : Embeddings T V S F) (unnormalize : Bool) (f : Str → List F → W) : W :=
  W.each (fun p =>
    W.ofRes (do
      let v ← Storage.embedding e.storage p.2
      let n ← e.normAt p.2
      return (v, n)) fun vn =>
      f p.1 (if unnormalize then intoUnnormalized vn else vn.1))
    (Vocab.words e.vocab).zipIdx

/-! ## word2vec (src/compat/word2vec.rs) -/

/-- src/compat/word2vec.rs:96-108, one iteration of the reading loop. -/
def readWord2vecEntry [FloatBits F] (embedLen : Nat) (lossy : Bool) : Rd (Str × List F) := do
  let word ← readToken 32 lossy
  let xs ← readF32s embedLen
  return (trimBy isWhitespace word, xs.map FloatBits.ofBits)

/-- src/compat/word2vec.rs:89-116, `read_word2vec_binary_raw`. A `String` takes 24 bytes. -/
def readWord2vecRaw [FloatBits F] (lossy : Bool) : Rd (Embeddings T SimpleVocab (NdArray F) F) := do
  let nWords ← readNumber 32
  let embedLen ← readNumber 10
  allocArray 4 [nWords, embedLen]
  alloc 24 nWords
  let entries ← replicateM nWords (readWord2vecEntry (F := F) embedLen lossy)
  let vocab ← lift (SimpleVocab.new (entries.map (·.1)))
  lift (newWithMaybeNorms none vocab (NdArray.mk ⟨embedLen, entries.map (·.2)⟩) none)

/-- Normalisation after reading: src/compat/word2vec.rs:61-63 (= :69-71), src/compat/text.rs:75-77
(= :82-84, :141-143, :148-150). -/
def normalizeRead (e : Embeddings T SimpleVocab (NdArray F) F) :
    Res (Embeddings T SimpleVocab (NdArray F) F) :=
  let (m, norms) := l2NormalizeArray e.storage.inner
  new none e.vocab (NdArray.mk m) ⟨norms⟩

/-- src/compat/word2vec.rs:58-72, `read_word2vec_binary` and `read_word2vec_binary_lossy`. -/
def readWord2vec [FloatBits F] (lossy : Bool) : Rd (Embeddings T SimpleVocab (NdArray F) F) := do
  let e ← (readWord2vecRaw lossy : Rd (Embeddings T SimpleVocab (NdArray F) F))
  lift (normalizeRead e)

/-- The header line `"{} {}\n"`: src/compat/word2vec.rs:144-145, src/compat/text.rs:342-343. The pieces a
`writeln!` hands to the writer are merged into one. -/
def shapeLine (e : Embeddings T V S F) : W :=
  W.emit (utf8 (printNat (Vocab.wordsLen e.vocab)) ++ 32 :: utf8 (printNat e.dims) ++ [10])

/-- src/compat/word2vec.rs:140-166, `write_word2vec_binary`. -/
def writeWord2vec [FloatBits F] (e : Embeddings T V S F) (unnormalize : Bool) : W :=
  e.shapeLine ++
  e.eachRow unnormalize fun word v =>
    W.emit (utf8 word ++ [32]) ++ W.each (fun x => W.f32 (FloatBits.toBits x)) v ++ W.emit [10]

/-! ## Text (src/compat/text.rs) -/

/-- src/compat/text.rs:219-240, one line: the word and the components. -/
def readTextLine [FloatText F] (lossy : Bool) (buf : Bytes) : Res (Str × List F) := do
  let line ← decodeToken lossy buf
  match parts line with
  | [] => .err .format
  | word :: ps => do
    let xs ← ps.mapM fun p => Res.ofOption .format (FloatText.parse p)
    return (trimBy isAsciiWs word, xs)

/-- src/compat/text.rs:243-264: the shape of the matrix from the number of words and components. The
division panics if there are no words. -/
def tableShape (shape : Option (Nat × Nat)) (nWords nData : Nat) : Res (Nat × Nat) :=
  match shape with
  | some (n, dims) =>
    if nWords ≠ n then .err .format
    else if n = 0 then .panic
    else if nData / n ≠ dims then .err .format
    else .ok (n, dims)
  | none => if nWords = 0 then .panic else .ok (nWords, nData / nWords)

/-- `Array2::from_shape_vec(..).map_err(Error::MatrixShape)`: src/compat/text.rs:266,
src/compat/floret/io.rs:90-91. -/
def fromShapeVec {α : Type} (shape : Nat × Nat) (data : List α) : Res (Mat α) :=
  if data.length = shape.1 * shape.2 then .ok (Mat.ofFlat shape.1 shape.2 data) else .err .shape

/-- src/compat/text.rs:196-203: the buffers are allocated for the promised shape. The multiplication
`n_words * dims` overflows for absurd shapes: it is modelled as the panic of a build with overflow checks
(in other builds the capacity wraps around). -/
def allocTable (shape : Option (Nat × Nat)) : Res Unit :=
  match shape with
  | some (n, dims) => do
    Res.assert (24 * n ≤ isizeMax)
    Res.assert (4 * (n * dims) ≤ isizeMax)
  | none => .ok ()

/-- src/compat/text.rs:188-274, `read_embeds`. Everything up to the end of the data is read; the position
afterwards is not part of the result. -/
def readEmbeds [FloatText F] (shape : Option (Nat × Nat)) (lossy : Bool) (d : Bytes) (pos : Nat) :
    Res (Embeddings T SimpleVocab (NdArray F) F) := do
  allocTable shape
  let rows ← (textLines (d.drop pos)).mapM (readTextLine (F := F) lossy)
  let shape ← tableShape shape rows.length (rows.map (·.2)).flatten.length
  let m ← fromShapeVec shape (rows.map (·.2)).flatten
  let vocab ← SimpleVocab.new (rows.map (·.1))
  newWithMaybeNorms none vocab (NdArray.mk m) none

/-- src/compat/text.rs:101-103, `read_text_raw`. -/
def readTextRaw [FloatText F] (lossy : Bool) (d : Bytes) (pos : Nat) :
    Res (Embeddings T SimpleVocab (NdArray F) F) :=
  readEmbeds none lossy d pos

/-- src/compat/text.rs:73-85, `read_text` and `read_text_lossy`. -/
def readText [FloatText F] (lossy : Bool) (d : Bytes) (pos : Nat) :
    Res (Embeddings T SimpleVocab (NdArray F) F) := do
  normalizeRead (← readTextRaw lossy d pos)

/-- src/compat/text.rs:173-186, `read_text_dims_raw` and `read_text_dims_raw_lossy`. -/
def readTextDimsRaw [FloatText F] (lossy : Bool) (d : Bytes) (pos : Nat) :
    Res (Embeddings T SimpleVocab (NdArray F) F) := do
  let (nWords, pos) ← readNumber 32 d pos
  let (embedLen, pos) ← readNumber 10 d pos
  readEmbeds (some (nWords, embedLen)) lossy d pos

/-- src/compat/text.rs:139-151, `read_text_dims` and `read_text_dims_lossy`. -/
def readTextDims [FloatText F] (lossy : Bool) (d : Bytes) (pos : Nat) :
    Res (Embeddings T SimpleVocab (NdArray F) F) := do
  normalizeRead (← readTextDimsRaw lossy d pos)

/-- `.iter().map(ToString::to_string).join(" ")`: src/compat/text.rs:308, src/compat/floret/io.rs:136. -/
def joinFloats [FloatText F] : List F → Str
  | [] => []
  | [x] => FloatText.print x
  | x :: y :: xs => FloatText.print x ++ ' ' :: joinFloats (y :: xs)

/-- src/compat/text.rs:300-314, `write_text`. -/
def writeText [FloatText F] (e : Embeddings T V S F) (unnormalize : Bool) : W :=
  e.eachRow unnormalize fun word v => W.emit (utf8 (word ++ ' ' :: joinFloats v) ++ [10])

/-- src/compat/text.rs:341-345, `write_text_dims`. -/
def writeTextDims [FloatText F] (e : Embeddings T V S F) (unnormalize : Bool) : W :=
  e.shapeLine ++ e.writeText unnormalize

end Embeddings

end FF
