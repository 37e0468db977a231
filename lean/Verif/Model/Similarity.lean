import Verif.Model.Embeddings

/-!
# Similarity queries (src/similarity.rs)
-/

namespace FF

/-- Comparison of `f32` values, as used by `NotNan`: `isNan` and `<`. Users: src/similarity.rs:21, :57-64, :316. -/
class ScalarOrd (F : Type) where
  isNan : F → Bool
  lt : F → F → Bool

/-- Ordering of two values that are not NaN (crate ordered-float, `Ord for NotNan`: the `partial_cmp` of the
floats). User: src/similarity.rs:57-64. -/
def cmpF {F : Type} [ScalarOrd F] (a b : F) : Ordering :=
  if ScalarOrd.lt a b then .lt else if ScalarOrd.lt b a then .gt else .eq

/-- `Ord for [u8]`: lexicographic. User: src/similarity.rs:57-64. -/
def cmpBytes : Bytes → Bytes → Ordering
  | [], [] => .eq
  | [], _ :: _ => .lt
  | _ :: _, [] => .gt
  | a :: as, b :: bs => if a < b then .lt else if b < a then .gt else cmpBytes as bs

/-- `Ord for str`: that of the UTF-8 bytes. User: src/similarity.rs:57-64. -/
def cmpStr (a b : Str) : Ordering := cmpBytes (utf8 a) (utf8 b)

/-- src/similarity.rs:19-23, `struct WordSimilarityResult`. -/
structure WordSim (F : Type) where
  similarity : F
  word : Str
deriving DecidableEq, Repr

section
variable {F : Type} [ScalarOrd F]

/-- src/similarity.rs:57-64, `Ord for WordSimilarityResult`. -/
def WordSim.cmp (a b : WordSim F) : Ordering :=
  match cmpF b.similarity a.similarity with
  | .eq => cmpStr a.word b.word
  | o => o

/-- src/similarity.rs:66-70, `PartialOrd for WordSimilarityResult`, `partial_cmp`. -/
def WordSim.partialCmp (a b : WordSim F) : Option Ordering := some (a.cmp b)

/-- `==` of `f32`, as used by `PartialEq for NotNan`. User: the derived `PartialEq`, src/similarity.rs:19. -/
def eqF (a b : F) : Bool :=
  !ScalarOrd.isNan a && !ScalarOrd.isNan b && !ScalarOrd.lt a b && !ScalarOrd.lt b a

/-- src/similarity.rs:19, the derived `PartialEq for WordSimilarityResult`: field by field. -/
def WordSim.eq (a b : WordSim F) : Bool := eqF a.similarity b.similarity && decide (a.word = b.word)

/-- The greatest element of a heap and the others. A `BinaryHeap` is modelled by the list of its elements, in no
particular order: only `len`, `push`, `peek_mut` and `into_sorted_vec` are used. Users: `peek_mut`,
src/similarity.rs:322-325. -/
def heapMax : List (WordSim F) → Option (WordSim F × List (WordSim F))
  | [] => none
  | x :: xs =>
    match heapMax xs with
    | none => some (x, xs)
    | some (m, rest) => if m.cmp x = .lt then some (x, xs) else some (m, x :: rest)

/-- src/similarity.rs:319-326: add a result to the heap of at most `limit` results. -/
def heapAdd (limit : Nat) (heap : List (WordSim F)) (r : WordSim F) : Res (List (WordSim F)) :=
  if heap.length < limit then .ok (r :: heap)
  else match heapMax heap with
    | none => .panic
    | some (m, rest) => .ok (if r.cmp m = .lt then r :: rest else heap)

/-- Insert into a sorted list. Part of `into_sorted_vec`, src/similarity.rs:330. -/
def insertSorted (r : WordSim F) : List (WordSim F) → List (WordSim F)
  | [] => [r]
  | x :: xs => if x.cmp r = .lt then x :: insertSorted r xs else r :: x :: xs

/-- `BinaryHeap::into_sorted_vec`: the elements in ascending order (src/similarity.rs:330). -/
def intoSortedVec (heap : List (WordSim F)) : List (WordSim F) := heap.foldr insertSorted []

end

/-- ndarray's `axis_chunks_iter(Axis(0), size)`: consecutive blocks of `size` rows, the last one possibly
shorter; panics if `size` is zero. User: src/similarity.rs:297-302. -/
def axisChunks {α : Type} (rows : List α) (size : Nat) : Res (List (List α)) :=
  if size = 0 then .panic else .ok (chunks ((rows.length + size - 1) / size) size rows)

namespace Embeddings
variable {T V S F : Type} [Vocab V] [Storage S F] [StorageView S F] [Scalar F] [ScalarOrd F]

/-- src/similarity.rs:308-327, the loop body for row number `i`. `skip` is the set of words as a list. The matrix
product `batch.dot(&embed)` gives one `dot` per row. -/
def similarityRow (e : Embeddings T V S F) (embed : List F) (skip : List Str) (limit : Nat)
    (heap : List (WordSim F)) (row : List F) (i : Nat) : Res (List (WordSim F)) := do
  let word ← Res.unwrap (Vocab.words e.vocab)[i]?
  if skip.contains word then return heap
  let sim := Scalar.dot row embed
  Res.assert (!ScalarOrd.isNan sim)
  heapAdd limit heap ⟨sim, word⟩

/-- src/similarity.rs:302-328, one batch. `dot` panics if the query has another length than the rows. -/
def similarityBatch (e : Embeddings T V S F) (embed : List F) (skip : List Str) (limit cols batchSize : Nat)
    (heap : List (WordSim F)) (b : List (List F) × Nat) : Res (List (WordSim F)) := do
  Res.assert (decide (embed.length = cols))
  b.1.zipIdx.foldlM (fun h p => e.similarityRow embed skip limit h p.1 (b.2 * batchSize + p.2)) heap

/-- src/similarity.rs:286-331, `similarity_`. A `WordSimilarityResult` has 24 bytes: `with_capacity(limit)` panics if
that many do not fit the address space. -/
def similarity (e : Embeddings T V S F) (embed : List F) (skip : List Str) (limit : Nat)
    (batchSize : Option Nat) : Res (List (WordSim F)) := do
  let batchSize := batchSize.getD (Vocab.wordsLen e.vocab)
  Res.assert (decide (24 * limit ≤ isizeMax))
  let m ← view e.storage
  Res.assert (decide (Vocab.wordsLen e.vocab ≤ m.nrows))
  let batches ← axisChunks (m.rows.take (Vocab.wordsLen e.vocab)) batchSize
  let heap ← batches.zipIdx.foldlM (e.similarityBatch embed skip limit m.cols batchSize) []
  return intoSortedVec heap

/-- src/similarity.rs:192-203, `word_similarity`. -/
def wordSimilarity (e : Embeddings T V S F) (word : Str) (limit : Nat) (batchSize : Option Nat) :
    Res (Option (List (WordSim F))) := do
  match ← e.embedding word with
  | none => return none
  | some embed => do
    let r ← e.similarity embed [word] limit batchSize
    return some r

/-- src/similarity.rs:258-268, `embedding_similarity_masked`. -/
def embeddingSimilarityMasked (e : Embeddings T V S F) (query : List F) (limit : Nat) (skip : List Str)
    (batchSize : Option Nat) : Res (Option (List (WordSim F))) := do
  let r ← e.similarity (l2Normalize query).1 skip limit batchSize
  return some r

/-- src/similarity.rs:221-228, `embedding_similarity`. -/
def embeddingSimilarity (e : Embeddings T V S F) (query : List F) (limit : Nat) (batchSize : Option Nat) :
    Res (Option (List (WordSim F))) :=
  e.embeddingSimilarityMasked query limit [] batchSize

/-- src/similarity.rs:334-361, `lookup_words3`. -/
def lookupWords3 (e : Embeddings T V S F) (q1 q2 q3 : Str) :
    Res (Except (Bool × Bool × Bool) (List F × List F × List F)) := do
  let e1 ← e.embedding q1
  let e2 ← e.embedding q2
  let e3 ← e.embedding q3
  match e1, e2, e3 with
  | some v1, some v2, some v3 => return .ok (v1, v2, v3)
  | _, _, _ => return .error (e1.isSome, e2.isSome, e3.isSome)

/-- src/similarity.rs:139-161, `analogy_masked`. The outer result is the panic, the inner one the `Result`. -/
def analogyMasked (e : Embeddings T V S F) (q1 q2 q3 : Str) (r1 r2 r3 : Bool) (limit : Nat)
    (batchSize : Option Nat) : Res (Except (Bool × Bool × Bool) (List (WordSim F))) := do
  match ← e.lookupWords3 q1 q2 q3 with
  | .error present => return .error present
  | .ok (v1, v2, v3) => do
    let embedding := (l2Normalize (List.zipWith Scalar.add (List.zipWith Scalar.sub v2 v1) v3)).1
    let skip := ([(q1, r1), (q2, r2), (q3, r3)].filter (·.2)).map (·.1)
    let r ← e.similarity embedding skip limit batchSize
    return .ok r

/-- src/similarity.rs:91-98, `analogy`. -/
def analogy (e : Embeddings T V S F) (q1 q2 q3 : Str) (limit : Nat) (batchSize : Option Nat) :
    Res (Except (Bool × Bool × Bool) (List (WordSim F))) :=
  e.analogyMasked q1 q2 q3 true true true limit batchSize

end Embeddings

/-- The magnitude bits of a single precision float. For the comparison of `NotNan<f32>`, src/similarity.rs:21.
-/
def f32Mag (x : F32) : Nat := x.toNat % 2 ^ 31

/-- A single precision float that is not NaN as an integer in the same order (sign and magnitude). For the
comparison of `NotNan<f32>`, src/similarity.rs:21. -/
def f32Key (x : F32) : Int := if x.toNat < 2 ^ 31 then f32Mag x else - (f32Mag x : Int)

/-- IEEE 754 comparison of single precision floats, given by their bit patterns. User: src/similarity.rs:21,316. -/
instance : ScalarOrd F32 where
  isNan x := decide (0x7f800000 < f32Mag x)
  lt x y := !decide (0x7f800000 < f32Mag x) && !decide (0x7f800000 < f32Mag y) && decide (f32Key x < f32Key y)

end FF
