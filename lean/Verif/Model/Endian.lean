import Verif.Model.Embeddings
import Verif.Model.Wrappers

/-!
# Byte order of the machine

The rest of the model describes little-endian machines. Only memory-mapped dense matrices depend on the byte order
(`#[cfg(target_endian = …)]` in src/chunks/storage/array.rs, src/chunks/storage/wrappers.rs and src/embeddings.rs); here
they are modelled for both orders.
-/

namespace FF

open Rd

/-- `target_endian`. Users: src/chunks/storage/array.rs:56, :77, :92, :166, src/chunks/storage/wrappers.rs:186-218. -/
inductive Endian where
  | little
  | big
deriving DecidableEq, Repr

/-- The `f32` that the machine sees at four bytes of memory (`*const f32`): src/chunks/storage/array.rs:53, :73. -/
def Endian.load (e : Endian) (bs : Bytes) : F32 :=
  match e with
  | .little => UInt32.ofNat (leVal bs)
  | .big => UInt32.ofNat (bs.foldl (fun v b => 256 * v + b.toNat) 0)

/-- `n` consecutive `f32`s in memory: src/chunks/storage/array.rs:53, :73. -/
def Endian.loads (e : Endian) : Nat → Bytes → List F32
  | 0, _ => []
  | n + 1, bs => e.load (bs.take 4) :: e.loads n (bs.drop 4)

/-- `u32::swap_bytes`: the four bytes of the number in reverse order. Part of byteorder's `LittleEndian::from_slice_f32` on big-endian machines, user:
src/chunks/storage/array.rs:57, :78. -/
def swapBytes (x : F32) : F32 :=
  UInt32.ofNat (leVal (leBytes 4 x.toNat).reverse)

/-- The `#[cfg(target_endian = "big")]` call of `LittleEndian::from_slice_f32`: src/chunks/storage/array.rs:56-61,
:77-82. -/
def Endian.fromSlice (e : Endian) (xs : List F32) : List F32 :=
  match e with
  | .little => xs
  | .big => xs.map swapBytes

/-- src/chunks/storage/array.rs:52-55, the row in the machine's byte order. -/
def MmapArray.rawRow (e : Endian) (a : MmapArray) (i : Nat) : Res (List F32) :=
  if i < a.nRows then (a.map.slice (4 * (i * a.cols)) (4 * a.cols)).map (e.loads a.cols) else .panic

/-- src/chunks/storage/array.rs:47-64, `MmapArray::embedding`. -/
def MmapArray.embeddingOn (e : Endian) (a : MmapArray) (i : Nat) : Res (List F32) := do
  let row ← a.rawRow e i
  return e.fromSlice row

/-- src/chunks/storage/array.rs:66-85, `MmapArray::embeddings`. The conversion runs over the slice of the whole selected
matrix, here row by row. -/
def MmapArray.embeddingsOn (e : Endian) (a : MmapArray) (is : List Nat) : Res (Mat F32) := do
  let rows ← is.mapM (a.rawRow e)
  return ⟨a.cols, rows.map e.fromSlice⟩

/-- src/chunks/storage/array.rs:104-110, `MmapArray::clone_from_mapping`. -/
def MmapArray.cloneOn (e : Endian) (a : MmapArray) (mapping : List Nat) : Res (NdArray F32) :=
  (a.embeddingsOn e mapping).map NdArray.mk

/-- src/chunks/storage/wrappers.rs:40-50, `StorageWrap::embedding`. -/
def StorageWrap.embeddingOn [Scalar F32] (e : Endian) : StorageWrap → Nat → Res (List F32)
  | .mmapArray a, i => a.embeddingOn e i
  | .mmapQuantized a, i => embedding a i
  | .ndArray a, i => embedding a i
  | .quantized a, i => embedding a i

/-- src/chunks/storage/wrappers.rs:52-61, `StorageWrap::embeddings`. -/
def StorageWrap.embeddingsOn [Scalar F32] (e : Endian) : StorageWrap → List Nat → Res (Mat F32)
  | .mmapArray a, is => a.embeddingsOn e is
  | .mmapQuantized a, is => embeddings a is
  | .ndArray a, is => embeddings a is
  | .quantized a, is => embeddings a is

/-- src/chunks/storage/wrappers.rs:78-93, `StorageWrap::clone_from_mapping`. -/
def StorageWrap.cloneOn (e : Endian) : StorageWrap → List Nat → Res StorageWrap
  | .ndArray a, m => (cloneFromMapping a m).map .ndArray
  | .quantized a, m => (cloneFromMapping a m).map .quantized
  | .mmapQuantized a, m => (cloneFromMapping a m).map .quantized
  | .mmapArray a, m => (a.cloneOn e m).map .ndArray

/-- src/chunks/storage/wrappers.rs:184-195, `StorageWrap::chunk_identifier`; `unimplemented!()` for a mapped matrix on
big-endian machines. -/
def StorageWrap.chunkIdOn (e : Endian) : StorageWrap → Res ChunkId
  | .mmapArray a => match e with
    | .little => .ok (chunkId a)
    | .big => .panic
  | .mmapQuantized a => .ok (chunkId a)
  | .ndArray a => .ok (chunkId a)
  | .quantized a => .ok (chunkId a)

/-- src/chunks/storage/wrappers.rs:197-208, `StorageWrap::chunk_len`. -/
def StorageWrap.chunkLenOn (e : Endian) : StorageWrap → Nat → Res Nat
  | .mmapArray a, off => match e with
    | .little => .ok (chunkLen a off)
    | .big => .panic
  | .mmapQuantized a, off => .ok (chunkLen a off)
  | .ndArray a, off => .ok (chunkLen a off)
  | .quantized a, off => .ok (chunkLen a off)

/-- src/chunks/storage/wrappers.rs:210-224, `StorageWrap::write_chunk`. -/
def StorageWrap.writeOn (e : Endian) : StorageWrap → Nat → W
  | .mmapArray a, off => match e with
    | .little => writeChunk a off
    | .big => W.done .panic
  | .mmapQuantized a, off => writeChunk a off
  | .ndArray a, off => writeChunk a off
  | .quantized a, off => writeChunk a off

/-- src/chunks/storage/wrappers.rs:359-384, `StorageViewWrap::mmap_chunk`: the arm for matrices exists on little-endian
machines only. -/
def mmapStorageViewWrapOn (e : Endian) : Rd StorageViewWrap := do
  let id ← peekChunkId
  match e, id with
  | .little, .ndArray => do return .mmapArray (← mmapNdArray)
  | _, _ => fail .format

namespace Embeddings
variable {T : Type} [Toml T] {V : Type}

/-- src/embeddings.rs:559-571 (= :591-603), the identifiers for the header; asking a storage may panic. -/
def chunkIdsOn [WriteChunk V] (m : Endian) (e : Embeddings T V StorageWrap F32) : Res (List ChunkId) := do
  let chunks := match e.metadata with
    | some x => [chunkId x]
    | none => []
  let s ← e.storage.chunkIdOn m
  let chunks := chunks ++ [chunkId e.vocab, s]
  return match e.norms with
    | some n => chunks ++ [chunkId n]
    | none => chunks

/-- src/embeddings.rs:555-586, `write_embeddings` of embeddings with a `StorageWrap`. -/
def writeOn [WriteChunk V] (m : Endian) (e : Embeddings T V StorageWrap F32) (off : Nat) : W :=
  match e.chunkIdsOn m with
  | .ok ids =>
    (andThen (fun _ => (Header.mk ids).write) <|
      andThen (writeOpt e.metadata) <|
      andThen (writeChunk e.vocab) <|
      andThen (e.storage.writeOn m) <|
      writeOpt e.norms) off
  | .err x => W.done (.err x)
  | .panic => W.done .panic

/-- src/embeddings.rs:588-620, `write_embeddings_len` of embeddings with a `StorageWrap`. -/
def writeLenOn [WriteChunk V] (m : Endian) (e : Embeddings T V StorageWrap F32) (off : Nat) : Res Nat := do
  let ids ← e.chunkIdsOn m
  let len := 0
  let len := len + chunkLen (Header.mk ids) (off + len)
  let len := len + lenOpt e.metadata (off + len)
  let len := len + chunkLen e.vocab (off + len)
  let s ← e.storage.chunkLenOn m (off + len)
  let len := len + s
  return len + lenOpt e.norms (off + len)

end Embeddings

end FF
