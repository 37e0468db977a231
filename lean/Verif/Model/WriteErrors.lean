import Verif.Model.FastText

/-!
# The kind of error that a failed write is reported with

Elsewhere in the model, `Error::Read` and `Error::Write` are the single error `Err.io`. Here, each `write_all` of the fastText
writer carries the kind of error that its failure is mapped to.
-/

namespace FF

/-- src/error.rs:34-39 (`Error::Read`) and :53-58 (`Error::Write`). -/
inductive IoKind where
  | read
  | write
deriving DecidableEq, Repr

/-- A writing function (`W`, src/chunks/io.rs:161-175) with, for each `write_all`, the error of its `map_err`, e.g.
src/compat/fasttext/io.rs:582-593. -/
structure LW where
  blocks : List (Bytes × IoKind)
  status : Res Unit
deriving DecidableEq, Repr

namespace LW

/-- A writing function all of whose writes have `map_err(|e| Error::write_error(..))`, e.g.
src/compat/fasttext/io.rs:159-164. -/
def ofW (w : W) : LW := ⟨w.blocks.map fun b => (b, .write), w.status⟩

/-- The writing function without the kinds of errors (src/chunks/io.rs:161-175). -/
def toW (w : LW) : W := ⟨w.blocks.map Prod.fst, w.status⟩

/-- One `write_all` with `map_err(|e| Error::read_error(..))`, src/compat/fasttext/io.rs:591-593. -/
def emitRead (b : Bytes) : LW := ⟨[(b, .read)], .ok ()⟩

/-- Sequencing, as `W.seq`: the `?` after each call, e.g. src/compat/fasttext/io.rs:166-168. -/
def seq (a b : LW) : LW :=
  match a.status with
  | .ok () => ⟨a.blocks ++ b.blocks, b.status⟩
  | _ => a

/-- `++` for sequencing, e.g. src/compat/fasttext/io.rs:166-168. -/
instance : Append LW := ⟨seq⟩

/-- A loop of writes, src/compat/fasttext/io.rs:580-594. -/
def each {α : Type} (f : α → LW) : List α → LW
  | [] => ⟨[], .ok ()⟩
  | a :: as => f a ++ each f as

/-- `W.ofRes` with kinds: a computation of the writing function that may itself fail, e.g.
src/compat/fasttext/io.rs:145-155. -/
def ofRes {α : Type} (r : Res α) (f : α → LW) : LW :=
  match r with
  | .ok a => f a
  | .err e => ⟨[], .err e⟩
  | .panic => ⟨[], .panic⟩

/-- The error of the first `write_all` that does not go through, for a sink that accepts `cap` bytes and then fails. The
`map_err(..)?` of each write, e.g. src/compat/fasttext/io.rs:582-593. -/
def fails : Nat → List (Bytes × IoKind) → Option IoKind
  | _, [] => none
  | cap, (b, k) :: bs => if b.length ≤ cap then fails (cap - b.length) bs else some k

/-- The kind of I/O error that the caller of the writing function gets, if any, for a sink that accepts `cap` bytes and then
fails, e.g. src/compat/fasttext/io.rs:582-593. -/
def failure (w : LW) (cap : Nat) : Option IoKind := fails cap w.blocks

end LW

/-- src/compat/fasttext/io.rs:581-593: one vocabulary entry. A failure to write its last byte is a *read* error. -/
def writeFtWordL (word : Str) : LW :=
  LW.ofW (W.emit (utf8 word) ++ W.emit [0] ++ W.u64 0) ++ LW.emitRead [0]

/-- src/compat/fasttext/io.rs:560-597, `write_vocab`. -/
def writeFtVocabL (vocab : FastTextSubwordVocab) : LW :=
  if Vocab.wordsLen vocab < 2 ^ 32 then
    LW.ofW (W.u32 (Vocab.wordsLen vocab) ++ W.u32 (Vocab.wordsLen vocab) ++ W.u32 0 ++ W.u64 0 ++ W.u64 (2 ^ 64 - 1)) ++
    LW.each writeFtWordL vocab.words
  else LW.ofW (W.done (.err .overflow))

namespace Embeddings
variable {T S F : Type} [Scalar F] [ScalarNat F]

/-- src/compat/fasttext/io.rs:135-176, `write_fasttext`. All writes of `Config::write` (:275-314, :343-357, :386-400) and of
`write_embeddings` (:452-499) map failures to write errors. -/
def writeFastTextL [Storage S F] [FloatBits F] (e : Embeddings T FastTextSubwordVocab S F) : LW :=
  LW.ofRes e.ftConfig fun config =>
    LW.ofW (W.u32 fastTextMagic ++ W.u32 fastTextVersion ++ writeFtConfig config) ++ writeFtVocabL e.vocab ++
    LW.ofW (W.emit [0] ++ e.writeFtEmbeddings)

end Embeddings

end FF
