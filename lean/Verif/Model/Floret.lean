import Verif.Model.Text

/-!
# The floret text format (src/compat/floret/io.rs)
-/

namespace FF

open Rd

/-- The numbers and markers of the first line of a floret file. The local variables of
src/compat/floret/io.rs:29-36. -/
structure FloretHead where
  nBuckets : Nat
  embedLen : Nat
  minN : Nat
  maxN : Nat
  nHashes : Nat
  seed : Nat
  bow : Str
  eow : Str
deriving DecidableEq, Repr

/-- src/compat/floret/io.rs:29-36: the first line; three numbers are cut to 32 bits. -/
def readFloretHead : Rd FloretHead := do
  let nBuckets ← readNumber 32
  let embedLen ← readNumber 32
  let minN ← readNumber 32
  let maxN ← readNumber 32
  let nHashes ← readNumber 32
  let seed ← readNumber 32
  let bow ← readToken 32 false
  let eow ← readToken 10 false
  return ⟨nBuckets, embedLen, minN % 2 ^ 32, maxN % 2 ^ 32, nHashes % 2 ^ 32, seed, bow, eow⟩

/-- src/compat/floret/io.rs:38-60: the checks of the first line. -/
def checkFloretHead (h : FloretHead) : Res Unit :=
  if h.nBuckets = 0 then .err .format
  else if h.embedLen = 0 then .err .format
  else if h.minN > h.maxN then .err .format
  else if ¬(1 ≤ h.nHashes ∧ h.nHashes ≤ 4) then .err .format
  else .ok ()

namespace Embeddings
variable {T F : Type} [Scalar F]

/-- src/compat/floret/io.rs:66-85, one line: the components after the first column. Invalid UTF-8 is an
I/O error of `BufRead::lines`. -/
def readFloretLine [FloatText F] (embedLen : Nat) (buf : Bytes) : Res (List F) := do
  let line ← Res.ofOption .io (utf8Decode buf)
  let xs ← ((parts line).drop 1).mapM fun p => Res.ofOption .format (FloatText.parse p)
  if xs.length ≠ embedLen then .err .format else .ok xs

/-- src/compat/floret/io.rs:28-101, `read_floret_text`. The multiplication in `Vec::with_capacity` is
modelled with an overflow check, see `allocTable`. -/
def readFloret [FloatText F] (d : Bytes) (pos : Nat) :
    Res (Embeddings T FloretSubwordVocab (NdArray F) F) := do
  let (h, pos) ← readFloretHead d pos
  checkFloretHead h
  Res.assert (4 * (h.nBuckets * h.embedLen) ≤ isizeMax)
  let rows ← (bufLines (d.drop pos)).mapM (readFloretLine (F := F) h.embedLen)
  let m ← fromShapeVec (h.nBuckets, h.embedLen) rows.flatten
  let indexer ← FloretIndexer.new h.nBuckets h.nHashes (UInt32.ofNat h.seed)
  let vocab ← SubwordVocab.newWithBoundaries [] h.minN h.maxN indexer h.bow h.eow
  newWithMaybeNorms none vocab (NdArray.mk m) none

/-- src/compat/floret/io.rs:115-127: the first line. -/
def floretHeadLine (e : Embeddings T FloretSubwordVocab (NdArray F) F) : W :=
  W.ofRes (Vocab.vocabLen e.vocab) fun n =>
    W.emit (utf8 (printNat (n - Vocab.wordsLen e.vocab)) ++ 32 :: utf8 (printNat e.dims) ++
      32 :: utf8 (printNat e.vocab.minN) ++ 32 :: utf8 (printNat e.vocab.maxN) ++
      32 :: utf8 (printNat e.vocab.indexer.nHashes) ++ 32 :: utf8 (printNat e.vocab.indexer.seed.toNat) ++
      32 :: utf8 e.vocab.bow ++ 32 :: utf8 e.vocab.eow ++ [10])

/-- src/compat/floret/io.rs:137: one line of the matrix. -/
def floretRowLine [FloatText F] (p : List F × Nat) : W :=
  W.emit (utf8 (printNat p.2 ++ ' ' :: joinFloats p.1) ++ [10])

/-- src/compat/floret/io.rs:114-142, `write_floret_text`. Slicing panics if the matrix has fewer rows than
there are words. -/
def writeFloret [FloatText F] (e : Embeddings T FloretSubwordVocab (NdArray F) F) : W :=
  e.floretHeadLine ++
  W.done (Res.assert (Vocab.wordsLen e.vocab ≤ e.storage.inner.nrows)) ++
  W.each floretRowLine (e.storage.inner.rows.drop (Vocab.wordsLen e.vocab)).zipIdx

end Embeddings

end FF
