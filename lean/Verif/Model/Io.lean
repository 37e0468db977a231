import Verif.Model.Stream

/-!
# Chunk identifiers, type identifiers, header (src/chunks/io.rs)
-/

namespace FF

open Rd

/-- src/chunks/io.rs:14-27, `enum ChunkIdentifier`. -/
inductive ChunkId where
  | header | simpleVocab | ndArray | bucketSubwordVocab | quantizedArray | metadata | ndNorms
  | fastTextSubwordVocab | explicitSubwordVocab | floretSubwordVocab
deriving DecidableEq, Repr

namespace ChunkId

/-- src/chunks/io.rs:16-27, the discriminants (`identifier as u32`). -/
def code : ChunkId → Nat
  | header => 0
  | simpleVocab => 1
  | ndArray => 2
  | bucketSubwordVocab => 3
  | quantizedArray => 4
  | metadata => 5
  | ndNorms => 6
  | fastTextSubwordVocab => 7
  | explicitSubwordVocab => 8
  | floretSubwordVocab => 9

/-- src/chunks/io.rs:69-88, `TryFrom<u32> for ChunkIdentifier` (note: 0 is not accepted). -/
def ofCode : Nat → Option ChunkId
  | 1 => some simpleVocab
  | 2 => some ndArray
  | 3 => some bucketSubwordVocab
  | 4 => some quantizedArray
  | 5 => some metadata
  | 6 => some ndNorms
  | 7 => some fastTextSubwordVocab
  | 8 => some explicitSubwordVocab
  | 9 => some floretSubwordVocab
  | _ => none

end ChunkId

/-- Read an identifier and convert it: src/chunks/io.rs:35-38 and :254-257
(`read_u32` then `ChunkIdentifier::try_from(..)?`). -/
def readChunkId : Rd ChunkId := do
  let c ← readU32
  lift (Res.ofOption .unknownChunk (ChunkId.ofCode c))

/-- src/chunks/io.rs:31-47, `ChunkIdentifier::ensure_chunk_type`. -/
def ensureChunkType (id : ChunkId) : Rd Unit := do
  let c ← readChunkId
  if c ≠ id then fail .format else pure ()

/-- src/chunks/io.rs:130, `f32::type_id()`. -/
def f32TypeId : Nat := 10
/-- src/chunks/io.rs:131, `u8::type_id()`. -/
def u8TypeId : Nat := 1

/-- src/chunks/io.rs:104-120, `TypeId::ensure_data_type`. -/
def ensureDataType (tid : Nat) : Rd Unit := do
  let t ← readU32
  if t ≠ tid then fail .format else pure ()

/-- src/chunks/io.rs:161-175, `trait WriteChunk`. `writeChunk x off` is what `x.write_chunk(w)`
writes when the stream position of `w` is `off`. -/
class WriteChunk (X : Type) where
  chunkId : X → ChunkId
  chunkLen : X → Nat → Nat
  writeChunk : X → Nat → W

/-- src/chunks/io.rs:133-140, `trait ReadChunk`. -/
class ReadChunk (X : Type) where
  readChunk : Rd X

export WriteChunk (chunkId chunkLen writeChunk)
export ReadChunk (readChunk)

/-- src/chunks/io.rs:12, `MAGIC` ("FiFu"). -/
def magic : Bytes := [70, 105, 70, 117]

/-- src/chunks/io.rs:10, `MODEL_VERSION`. -/
def modelVersion : Nat := 0

/-- src/chunks/io.rs:177-194, `struct Header`. -/
structure Header where
  ids : List ChunkId
deriving DecidableEq, Repr

/-- src/chunks/io.rs:190-196, `Header::chunk_len`. -/
def Header.len (h : Header) : Nat := 4 + 4 + 4 + h.ids.length * 4

/-- src/chunks/io.rs:198-219, `Header::write_chunk`. -/
def Header.write (h : Header) : W :=
  W.emit magic ++ W.u32 modelVersion ++ W.u32 h.ids.length ++
    W.each (fun i => W.u32 i.code) h.ids

/-- src/chunks/io.rs:222-265, `Header::read_chunk`. -/
def Header.read : Rd Header := do
  let m ← readExact 4
  if m ≠ magic then fail .format else do
  let version ← readU32
  if version ≠ modelVersion then fail .format else do
  let n ← readU32
  alloc 4 n
  let ids ← replicateM n readChunkId
  return ⟨ids⟩

/-- src/chunks/io.rs:184-219. -/
instance : WriteChunk Header := ⟨fun _ => .header, fun h _ => h.len, fun h _ => h.write⟩
/-- src/chunks/io.rs:221-265. -/
instance : ReadChunk Header := ⟨Header.read⟩

end FF
