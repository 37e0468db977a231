import Verif.Model.Io
import Verif.Model.Matrix

/-!
# Embedding storages and norms (src/chunks/storage, src/chunks/norms.rs)
-/

namespace FF

open Rd

/-- src/util.rs:64-67, `padding::<T>` for `size_of::<T>() = size`. -/
def padding (size pos : Nat) : Nat := size - pos % size

/-- src/chunks/storage/mod.rs:23-30, `trait Storage`. `embedding` and `embeddings` panic on an index out
of bounds. -/
class Storage (S : Type) (F : outParam Type) where
  embedding : S → Nat → Res (List F)
  embeddings : S → List Nat → Res (Mat F)
  shape : S → Nat × Nat

/-- src/chunks/storage/mod.rs:32-44, `trait CloneFromMapping`. -/
class CloneFromMapping (S : Type) (T : outParam Type) where
  cloneFromMapping : S → List Nat → Res T

/-- src/chunks/storage/mod.rs:46-50, `trait StorageView`. `view` can only fail to produce a value when a
file shrinks under a memory map (see `Mmap`). -/
class StorageView (S : Type) (F : outParam Type) where
  view : S → Res (Mat F)

export Storage (embedding embeddings shape)
export CloneFromMapping (cloneFromMapping)
export StorageView (view)

/-! ## Dense arrays (src/chunks/storage/array.rs) -/

/-- src/chunks/storage/array.rs:188-192, `struct NdArray`. -/
structure NdArray (F : Type) where
  inner : Mat F
deriving DecidableEq, Repr

/-- src/chunks/storage/array.rs:287-299. -/
instance {F : Type} : Storage (NdArray F) F where
  embedding a i := a.inner.row i
  embeddings a is := a.inner.select is
  shape a := a.inner.dim

/-- src/chunks/storage/array.rs:301-305. -/
instance {F : Type} : StorageView (NdArray F) F := ⟨fun a => .ok a.inner⟩

/-- src/chunks/storage/array.rs:313-319. -/
instance {F : Type} : CloneFromMapping (NdArray F) (NdArray F) :=
  ⟨fun a mapping => (a.inner.select mapping).map NdArray.mk⟩

/-- src/chunks/storage/array.rs:199-210, `NdArray::chunk_len`; takes only the number of elements. -/
def ndArrayLen (len off : Nat) : Nat := 4 + 8 + 8 + 4 + 4 + len * 4 + padding 4 (off + 4)

/-- src/chunks/storage/array.rs:212-272, `write_ndarray_chunk` on a writer whose position is `off`. -/
def writeNdArray (m : Mat F32) (off : Nat) : W :=
  W.u32 ChunkId.ndArray.code ++
  W.u64 (ndArrayLen m.len (off + 4) - (4 + 8)) ++
  W.u64 m.nrows ++ W.u32 m.cols ++ W.u32 f32TypeId ++
  W.emit (List.replicate (padding 4 (off + 4)) 0) ++
  W.each (W.each W.f32) m.rows

/-- src/chunks/storage/array.rs:326-344 (= :113-141): everything up to the matrix data. -/
def readNdArrayHead : Rd (Nat × Nat) := do
  ensureChunkType .ndArray
  let _ ← readU64
  let rows ← readU64
  let cols ← readU32
  ensureDataType f32TypeId
  let p ← position
  skip (padding 4 p)
  return (rows, cols)

/-- src/chunks/storage/array.rs:321-359, `NdArray::read_chunk`. -/
def readNdArray : Rd (NdArray F32) := do
  let (rows, cols) ← readNdArrayHead
  allocArray 4 [rows, cols]
  let data ← readF32s (rows * cols)
  return ⟨Mat.ofFlat rows cols data⟩

/-- src/chunks/storage/array.rs:361-379. -/
instance : WriteChunk (NdArray F32) :=
  ⟨fun _ => .ndArray, fun a off => ndArrayLen a.inner.len off, fun a off => writeNdArray a.inner off⟩
/-- src/chunks/storage/array.rs:321-359. -/
instance : ReadChunk (NdArray F32) := ⟨readNdArray⟩

/-! ## Memory maps (crate memmap2) -/

/-- A memory-mapped region of a file: the file's bytes, offset and length of the region. Users:
src/chunks/storage/array.rs:42, src/chunks/storage/quantized.rs:541-545. -/
structure Mmap where
  file : Bytes
  off : Nat
  len : Nat
deriving DecidableEq, Repr

/-- The size of a memory page (x86-64 and most other targets), for the maps of
src/chunks/storage/array.rs:143-158 and src/chunks/storage/quantized.rs:559-587. -/
def pageSize : Nat := 4096

/-- Where the last page of a file of `len` bytes ends (same maps as `pageSize`).
src/chunks/storage/array.rs:149-158. -/
def pageEnd (len : Nat) : Nat := (len + pageSize - 1) / pageSize * pageSize

/-- `n` bytes of the region from `start`. Behind the end of the file, the rest of its last page reads as zeros;
touching a page that lies completely behind the end of the file raises SIGBUS and touching memory outside of the
region is undefined; both are modelled as a panic. Users: src/chunks/storage/array.rs:52-55,
src/chunks/storage/quantized.rs:548-555. -/
def Mmap.slice (m : Mmap) (start n : Nat) : Res Bytes :=
  if n = 0 then .ok []
  else if start + n ≤ m.len ∧ m.off + start + n ≤ pageEnd m.file.length then
    let bs := (m.file.drop (m.off + start)).take n
    .ok (bs ++ List.replicate (n - bs.length) 0)
  else .panic

/-- Map `len` bytes at the current position and seek behind them: src/chunks/storage/array.rs:143-161,
src/chunks/storage/quantized.rs:559-587. A length above `isize::MAX` is an error of `mmap`; other
failures of the system call are not modelled. -/
def mapRegion (len : Nat) : Rd Mmap := fun d pos =>
  if len ≤ isizeMax then .ok (⟨d, pos, len⟩, pos + len) else .err .io

/-- src/chunks/storage/array.rs:39-44, `struct MmapArray`. -/
structure MmapArray where
  map : Mmap
  nRows : Nat
  cols : Nat
deriving DecidableEq, Repr

/-- src/chunks/storage/array.rs:47-65, `MmapArray::embedding` (little-endian targets). -/
def MmapArray.row (a : MmapArray) (i : Nat) : Res (List F32) :=
  if i < a.nRows then (a.map.slice (4 * (i * a.cols)) (4 * a.cols)).map (decodeF32s a.cols) else .panic

/-- src/chunks/storage/array.rs:46-90. -/
instance : Storage MmapArray F32 where
  embedding := MmapArray.row
  embeddings a is := (is.mapM a.row).map fun rs => ⟨a.cols, rs⟩
  shape a := (a.nRows, a.cols)

/-- src/chunks/storage/array.rs:92-102, `MmapArray::view`. The view is materialised. -/
instance : StorageView MmapArray F32 :=
  ⟨fun a => ((List.range a.nRows).mapM a.row).map fun rs => ⟨a.cols, rs⟩⟩

/-- src/chunks/storage/array.rs:104-110. -/
instance : CloneFromMapping MmapArray (NdArray F32) :=
  ⟨fun a mapping => (embeddings a mapping).map NdArray.mk⟩

/-- src/chunks/storage/array.rs:112-163, `MmapArray::mmap_chunk`. The overflow of `shape.size() * 4`
is a panic (as with overflow checks on). -/
def mmapNdArray : Rd MmapArray := do
  let (rows, cols) ← readNdArrayHead
  lift (Res.assert (decide (rows * cols * 4 ≤ usizeMax)))
  let map ← mapRegion (rows * cols * 4)
  return ⟨map, rows, cols⟩

/-- A writer that reads a mapped region: what is written if the region is intact; if it is not, the process dies
and what had been written before is not modelled. Users: src/chunks/storage/array.rs:176-182,
src/chunks/storage/quantized.rs:697-708. -/
def W.ofView {α : Type} (r : Res α) (f : α → W) : W :=
  match r with
  | .ok a => f a
  | .err e => W.done (.err e)
  | .panic => W.done .panic

/-- src/chunks/storage/array.rs:166-182, `WriteChunk for MmapArray`. -/
instance : WriteChunk MmapArray :=
  ⟨fun _ => .ndArray, fun a off => ndArrayLen (a.nRows * a.cols) off,
   fun a off => W.ofView (view a) fun m => writeNdArray m off⟩

/-! ## Quantized arrays (src/chunks/storage/quantized.rs, crate reductive) -/

/-- reductive 0.9, `Pq<f32>`: optional projection and `quantizers` of shape `(n_subquantizers, n_centroids,
sub_dim)`, here one matrix per sub-quantizer. User: src/chunks/storage/quantized.rs:20-25. -/
structure Pq (F : Type) where
  projection : Option (Mat F)
  nCentroids : Nat
  subDim : Nat
  quantizers : List (Mat F)
deriving DecidableEq, Repr

namespace Pq
variable {F : Type}

/-- reductive, `Pq::quantized_len`. Users: e.g. src/chunks/storage/quantized.rs:67, :197. -/
def quantizedLen (q : Pq F) : Nat := q.quantizers.length
/-- reductive, `Pq::reconstructed_len`. Users: e.g. src/chunks/storage/quantized.rs:64, :200. -/
def reconstructedLen (q : Pq F) : Nat := q.quantizers.length * q.subDim

/-- Invariant kept by `Pq::new` and the array types: no empty dimension, the matrices have the stated shapes,
and the projection is square of the reconstructed length. For src/chunks/storage/quantized.rs:20-25. -/
structure WF (q : Pq F) : Prop where
  ne : q.quantizers ≠ []
  cent : q.nCentroids ≠ 0
  sub : q.subDim ≠ 0
  shape : ∀ m ∈ q.quantizers, m.WF ∧ m.cols = q.subDim ∧ m.nrows = q.nCentroids
  proj : ∀ p, q.projection = some p → p.WF ∧ p.cols = q.reconstructedLen ∧ p.nrows = q.reconstructedLen

/-- reductive, `Pq::new`: asserts that the quantizers are not empty and that the projection has the right shape
(the shape assertion cannot fail for projections read from a chunk). User: src/chunks/storage/quantized.rs:146.
-/
def new (projection : Option (Mat F)) (nCentroids subDim : Nat) (quantizers : List (Mat F)) :
    Res (Pq F) := do
  Res.assert (decide (quantizers.length * nCentroids * subDim ≠ 0))
  Res.assert (projection.all fun p => p.dim = (quantizers.length * subDim, quantizers.length * subDim))
  return ⟨projection, nCentroids, subDim, quantizers⟩

/-- reductive, `reconstruct` before projection: the concatenation of the centroids; panics if the code has the
wrong length or a centroid does not exist. User: src/chunks/storage/quantized.rs:274-276. -/
def centroids (q : Pq F) (code : List UInt8) : Res (List F) := do
  Res.assert (decide (code.length = q.quantizedLen))
  let parts ← (code.zip q.quantizers).mapM fun p => p.2.row p.1.toNat
  return parts.flatten

/-- reductive, multiplication with the transposed projection, `v.dot(&projection.t())`. User:
src/chunks/storage/quantized.rs:274-276. -/
def project [Scalar F] (q : Pq F) (v : List F) : List F :=
  match q.projection with
  | some p => p.rows.map fun r => Scalar.dot v r
  | none => v

/-- reductive, `Reconstruct::reconstruct`. Users: src/chunks/storage/quantized.rs:276, :599. -/
def reconstruct [Scalar F] (q : Pq F) (code : List UInt8) : Res (List F) :=
  (q.centroids code).map q.project

/-- reductive, `Reconstruct::reconstruct_batch`. The matrix product with the projection is taken row by row with
the same dot product (trusted: a BLAS may round differently). Users: src/chunks/storage/quantized.rs:286, :512,
:611. -/
def reconstructBatch [Scalar F] (q : Pq F) (codes : Mat UInt8) : Res (Mat F) := do
  let rs ← codes.rows.mapM q.centroids
  return ⟨q.reconstructedLen, rs.map q.project⟩

end Pq

/-- src/chunks/storage/quantized.rs:20-25, `struct QuantizedArray`. -/
structure QuantizedArray (F : Type) where
  quantizer : Pq F
  codes : Mat UInt8
  norms : Option (List F)
deriving DecidableEq, Repr

/-- Invariant of a `QuantizedArray`: the codes have one column per sub-quantizer, one norm per row. For
src/chunks/storage/quantized.rs:20-25. -/
structure QuantizedArray.WF {F : Type} (a : QuantizedArray F) : Prop where
  pq : a.quantizer.WF
  codes : a.codes.WF
  cols : a.codes.cols = a.quantizer.quantizedLen
  norms : ∀ ns, a.norms = some ns → ns.length = a.codes.nrows

/-- `array *= scalar`. Users: src/chunks/storage/quantized.rs:278, :601. -/
def scale {F : Type} [Scalar F] (v : List F) (x : F) : List F := v.map (Scalar.mul · x)

/-- Row lookup shared by src/chunks/storage/quantized.rs:273-282 and :596-605. -/
def quantizedRow {F : Type} [Scalar F] (q : Pq F) (norms : Option (List F)) (code : Nat → Res (List UInt8))
    (i : Nat) : Res (List F) := do
  let c ← code i
  let r ← q.reconstruct c
  match norms with
  | some ns => do
    let n ← Res.unwrap ns[i]?
    return scale r n
  | none => return r

/-- Multiply the rows of a batch with the norms, src/chunks/storage/quantized.rs:288-294, :613-619,
:514-516. -/
def scaleRows {F : Type} [Scalar F] (m : Mat F) (ns : List F) : Mat F :=
  ⟨m.cols, m.rows.zipWith scale ns⟩

/-- Batch lookup shared by src/chunks/storage/quantized.rs:284-297 and :607-622. -/
def quantizedRows {F : Type} [Scalar F] (q : Pq F) (norms : Option (List F))
    (select : List Nat → Res (Mat UInt8)) (is : List Nat) : Res (Mat F) := do
  let cs ← select is
  let m ← q.reconstructBatch cs
  match norms with
  | some ns => do
    let sel ← is.mapM fun i => Res.unwrap ns[i]?
    return scaleRows m sel
  | none => return m

/-- src/chunks/storage/quantized.rs:272-305. -/
instance {F : Type} [Scalar F] : Storage (QuantizedArray F) F where
  embedding a := quantizedRow a.quantizer a.norms a.codes.row
  embeddings a := quantizedRows a.quantizer a.norms a.codes.select
  shape a := (a.codes.nrows, a.quantizer.reconstructedLen)

/-- `norms.as_ref().map(|n| n.select(Axis(0), mapping))`, src/chunks/storage/quantized.rs:312, :638. -/
def selectNorms {F : Type} (norms : Option (List F)) (mapping : List Nat) : Res (Option (List F)) :=
  match norms with
  | some ns => (mapping.mapM fun i => Res.unwrap ns[i]?).map some
  | none => .ok none

/-- src/chunks/storage/quantized.rs:307-319. -/
instance {F : Type} : CloneFromMapping (QuantizedArray F) (QuantizedArray F) where
  cloneFromMapping a mapping := do
    let codes ← a.codes.select mapping
    let norms ← selectNorms a.norms mapping
    return ⟨a.quantizer, codes, norms⟩

/-- src/chunks/storage/quantized.rs:506-520, `Reconstruct::reconstruct`. Norms of another length than the
number of rows are a shape panic (simplified: ndarray would broadcast a single norm). -/
def QuantizedArray.reconstruct {F : Type} [Scalar F] (a : QuantizedArray F) : Res (NdArray F) := do
  let m ← a.quantizer.reconstructBatch a.codes
  match a.norms with
  | some ns => do
    Res.assert (decide (ns.length = m.nrows))
    return ⟨scaleRows m ns⟩
  | none => return ⟨m⟩

/-- src/chunks/storage/quantized.rs:42-74, `chunk_len_`; takes the number of rows of the codes. -/
def quantizedArrayLen {F : Type} (q : Pq F) (nrows : Nat) (norms : Option (List F)) (off : Nat) : Nat :=
  4 + 8 + 4 + 4 + 4 + 4 + 4 + 8 + 2 * 4 +
    q.projection.isSome.toNat * q.reconstructedLen * q.reconstructedLen * 4 +
    q.quantizedLen * q.nCentroids * (q.reconstructedLen / q.quantizedLen) * 4 +
    norms.isSome.toNat * nrows * 4 + nrows * q.quantizedLen + padding 4 (off + 4)

/-- src/chunks/storage/quantized.rs:151-269, `write_chunk` on a writer whose position is `off`. -/
def writeQuantizedArray (q : Pq F32) (codes : Mat UInt8) (norms : Option (List F32)) (off : Nat) : W :=
  W.u32 ChunkId.quantizedArray.code ++
  W.u64 (quantizedArrayLen q codes.nrows norms (off + 4) - (4 + 8)) ++
  W.u32 q.projection.isSome.toNat ++ W.u32 norms.isSome.toNat ++
  W.u32 q.quantizedLen ++ W.u32 q.reconstructedLen ++ W.u32 q.nCentroids ++
  W.u64 codes.nrows ++ W.u32 u8TypeId ++ W.u32 f32TypeId ++
  W.emit (List.replicate (padding 4 (off + 4)) 0) ++
  W.each (fun p : Mat F32 => W.each (W.each W.f32) p.rows) q.projection.toList ++
  W.each (fun m : Mat F32 => W.each (W.each W.f32) m.rows) q.quantizers ++
  W.each (W.each W.f32) norms.toList ++
  W.each (W.each fun c : UInt8 => W.emit [c]) codes.rows

/-- src/chunks/storage/quantized.rs:27-31, `struct PqRead`. -/
structure PqRead where
  nEmbeddings : Nat
  quantizer : Pq F32
  readNorms : Bool

/-- src/chunks/storage/quantized.rs:117-131: skip the padding and read the projection if there is one. -/
def readProjection (flag n : Nat) : Rd (Option (Mat F32)) := do
  let p ← position
  skip (padding 4 p)
  if flag ≠ 0 then do
    allocArray 4 [n, n]
    let xs ← readF32s (n * n)
    return some (Mat.ofFlat n n xs)
  else return none

/-- src/chunks/storage/quantized.rs:133-142: read the sub-quantizers. -/
def readQuantizers (quantizedLen nCentroids subDim : Nat) : Rd (List (Mat F32)) := do
  allocArray 4 [quantizedLen, nCentroids, subDim]
  let xs ← readF32s (quantizedLen * (nCentroids * subDim))
  return (chunks quantizedLen (nCentroids * subDim) xs).map (Mat.ofFlat nCentroids subDim)

/-- src/chunks/storage/quantized.rs:81-149, `read_product_quantizer`, with
`check_quantizer_invariants` (:34-40), which divides by `quantized_len`. -/
def readPq : Rd PqRead := do
  let projection ← readU32
  let readNorms ← readU32
  let quantizedLen ← readU32
  let reconstructedLen ← readU32
  let nCentroids ← readU32
  let nEmbeddings ← readU64
  lift (Res.assert (decide (quantizedLen ≠ 0)))
  if reconstructedLen % quantizedLen ≠ 0 then fail .format else do
  ensureDataType u8TypeId
  ensureDataType f32TypeId
  let proj ← readProjection projection reconstructedLen
  let qs ← readQuantizers quantizedLen nCentroids (reconstructedLen / quantizedLen)
  let q ← lift (Pq.new proj nCentroids (reconstructedLen / quantizedLen) qs)
  return ⟨nEmbeddings, q, decide (readNorms ≠ 0)⟩

/-- src/chunks/storage/quantized.rs:339-346 (= :661-669): the norms, if there are any. -/
def readQuantizedNorms (flag : Bool) (n : Nat) : Rd (Option (List F32)) :=
  if flag then do
    allocArray 4 [n]
    let ns ← readF32s n
    return some ns
  else return none

/-- src/chunks/storage/quantized.rs:326-346 (= :649-669): everything up to the codes. -/
def readQuantizedHead : Rd (PqRead × Option (List F32)) := do
  ensureChunkType .quantizedArray
  let _ ← readU64
  let r ← readPq
  let norms ← readQuantizedNorms r.readNorms r.nEmbeddings
  return (r, norms)

/-- src/chunks/storage/quantized.rs:321-358, `QuantizedArray::read_chunk`. -/
def readQuantizedArray : Rd (QuantizedArray F32) := do
  let (r, norms) ← readQuantizedHead
  allocArray 1 [r.nEmbeddings, r.quantizer.quantizedLen]
  let cs ← readExact (r.nEmbeddings * r.quantizer.quantizedLen)
  return ⟨r.quantizer, Mat.ofFlat r.nEmbeddings r.quantizer.quantizedLen cs, norms⟩

/-- src/chunks/storage/quantized.rs:360-385. -/
instance : WriteChunk (QuantizedArray F32) :=
  ⟨fun _ => .quantizedArray, fun a off => quantizedArrayLen a.quantizer a.codes.nrows a.norms off,
   fun a off => writeQuantizedArray a.quantizer a.codes a.norms off⟩
/-- src/chunks/storage/quantized.rs:321-358. -/
instance : ReadChunk (QuantizedArray F32) := ⟨readQuantizedArray⟩

/-- src/chunks/storage/quantized.rs:541-545, `struct MmapQuantizedArray`. -/
structure MmapQuantizedArray where
  quantizer : Pq F32
  codes : Mmap
  norms : Option (List F32)
deriving DecidableEq, Repr

/-- src/chunks/storage/quantized.rs:624-629: number of rows. `quantized_len` is not zero (`Pq::new`). -/
def MmapQuantizedArray.nRows (a : MmapQuantizedArray) : Nat := a.codes.len / a.quantizer.quantizedLen

/-- One row of the view `quantized_embeddings()`, src/chunks/storage/quantized.rs:548-555. -/
def MmapQuantizedArray.code (a : MmapQuantizedArray) (i : Nat) : Res (List UInt8) :=
  if i < a.nRows then a.codes.slice (i * a.quantizer.quantizedLen) a.quantizer.quantizedLen else .panic

/-- `select` on the view `quantized_embeddings()`. Users: src/chunks/storage/quantized.rs:610, :637. -/
def MmapQuantizedArray.select (a : MmapQuantizedArray) (is : List Nat) : Res (Mat UInt8) :=
  (is.mapM a.code).map fun rs => ⟨a.quantizer.quantizedLen, rs⟩

/-- The view `quantized_embeddings()`, src/chunks/storage/quantized.rs:548-555, materialised. -/
def MmapQuantizedArray.codesView (a : MmapQuantizedArray) : Res (Mat UInt8) :=
  a.select (List.range a.nRows)

/-- src/chunks/storage/quantized.rs:595-630. -/
instance [Scalar F32] : Storage MmapQuantizedArray F32 where
  embedding a := quantizedRow a.quantizer a.norms a.code
  embeddings a := quantizedRows a.quantizer a.norms a.select
  shape a := (a.nRows, a.quantizer.reconstructedLen)

/-- src/chunks/storage/quantized.rs:632-645. -/
instance : CloneFromMapping MmapQuantizedArray (QuantizedArray F32) where
  cloneFromMapping a mapping := do
    let codes ← a.select mapping
    let norms ← selectNorms a.norms mapping
    return ⟨a.quantizer, codes, norms⟩

/-- src/chunks/storage/quantized.rs:709-723. -/
def MmapQuantizedArray.reconstruct [Scalar F32] (a : MmapQuantizedArray) : Res (NdArray F32) := do
  let codes ← a.codesView
  QuantizedArray.reconstruct ⟨a.quantizer, codes, a.norms⟩

/-- src/chunks/storage/quantized.rs:647-680, `MmapQuantizedArray::mmap_chunk`. The overflow of
`n_embeddings * quantized_len` is a panic (as with overflow checks on). -/
def mmapQuantizedArray : Rd MmapQuantizedArray := do
  let (r, norms) ← readQuantizedHead
  lift (Res.assert (decide (r.nEmbeddings * r.quantizer.quantizedLen ≤ usizeMax)))
  let map ← mapRegion (r.nEmbeddings * r.quantizer.quantizedLen)
  return ⟨r.quantizer, map, norms⟩

/-- src/chunks/storage/quantized.rs:682-707, `WriteChunk for MmapQuantizedArray`. -/
instance : WriteChunk MmapQuantizedArray :=
  ⟨fun _ => .quantizedArray, fun a off => quantizedArrayLen a.quantizer a.nRows a.norms off,
   fun a off => W.ofView a.codesView fun codes => writeQuantizedArray a.quantizer codes a.norms off⟩

/-! ## Norms (src/chunks/norms.rs) -/

/-- src/chunks/norms.rs:22-25, `struct NdNorms`. -/
structure NdNorms (F : Type) where
  inner : List F
deriving DecidableEq, Repr

/-- src/chunks/norms.rs:92-102, `chunk_len`. -/
def normsLen (n off : Nat) : Nat := 4 + 8 + 8 + 4 + n * 4 + padding 4 (off + 4)

/-- src/chunks/norms.rs:104-142, `write_chunk`. -/
def writeNorms (ns : List F32) (off : Nat) : W :=
  W.u32 ChunkId.ndNorms.code ++ W.u64 (normsLen ns.length (off + 4) - (4 + 8)) ++
  W.u64 ns.length ++ W.u32 f32TypeId ++ W.emit (List.replicate (padding 4 (off + 4)) 0) ++
  W.each W.f32 ns

/-- src/chunks/norms.rs:53-85, `read_chunk`. -/
def readNorms : Rd (NdNorms F32) := do
  ensureChunkType .ndNorms
  let _ ← readU64
  let len ← readU64
  ensureDataType f32TypeId
  let p ← position
  skip (padding 4 p)
  allocArray 4 [len]
  let data ← readF32s len
  return ⟨data⟩

/-- src/chunks/norms.rs:87-142. -/
instance : WriteChunk (NdNorms F32) :=
  ⟨fun _ => .ndNorms, fun a off => normsLen a.inner.length off, fun a off => writeNorms a.inner off⟩
/-- src/chunks/norms.rs:53-85. -/
instance : ReadChunk (NdNorms F32) := ⟨readNorms⟩

/-! ## Metadata (src/chunks/metadata.rs) -/

/-- The `toml` crate: printing a table (`Table::to_string`) and parsing one (`str::parse::<Table>`). No law is
part of the class; theorems that need `parse (print t) = some t` state it. Users: src/chunks/metadata.rs:72,
:93. -/
class Toml (T : Type) where
  print : T → Str
  parse : Str → Option T

/-- src/chunks/metadata.rs:17-20, `struct Metadata`. -/
structure Metadata (T : Type) where
  inner : T
deriving DecidableEq, Repr

/-- src/chunks/metadata.rs:84-87, `chunk_len`. -/
def metadataLen {T : Type} [Toml T] (m : Metadata T) : Nat := 4 + 8 + strLen (Toml.print m.inner)

/-- src/chunks/metadata.rs:89-106, `write_chunk`. -/
def writeMetadata {T : Type} [Toml T] (m : Metadata T) : W :=
  W.u32 ChunkId.metadata.code ++ W.u64 (strLen (Toml.print m.inner)) ++ W.emit (utf8 (Toml.print m.inner))

/-- src/chunks/metadata.rs:49-77, `read_chunk`. -/
def readMetadata {T : Type} [Toml T] : Rd (Metadata T) := do
  ensureChunkType .metadata
  let len ← readU64
  alloc 1 len
  let buf ← readExact len
  let s ← lift (Res.ofOption .format (utf8Decode buf))
  let t ← lift (Res.ofOption .format (Toml.parse s))
  return ⟨t⟩

/-- src/chunks/metadata.rs:79-106. -/
instance {T : Type} [Toml T] : WriteChunk (Metadata T) :=
  ⟨fun _ => .metadata, fun m _ => metadataLen m, fun m _ => writeMetadata m⟩
/-- src/chunks/metadata.rs:49-77. -/
instance {T : Type} [Toml T] : ReadChunk (Metadata T) := ⟨readMetadata⟩

/-- src/chunks/metadata.rs:109-129, `ReadMetadata for Option<Metadata>`. -/
def readOptMetadata {T : Type} [Toml T] : Rd (Option (Metadata T)) := do
  let h ← Header.read
  match h.ids with
  | [] => fail .format
  | i :: _ =>
    if i = .metadata then do
      let m ← readMetadata
      return some m
    else return none

end FF
