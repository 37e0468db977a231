import Verif.Model.Subword

/-!
# Vocabularies (src/chunks/vocab/mod.rs, simple.rs, subword.rs: construction and lookup)
-/

namespace FF

/-- src/chunks/vocab/mod.rs:38-46, `enum WordIndex`. -/
inductive WordIndex where
  | word (i : Nat)
  | subword (is : List Nat)
deriving DecidableEq, Repr

/-- src/chunks/vocab/mod.rs:23-36, `trait Vocab`. `idx` and `vocab_len` can panic (through the
indexer). -/
class Vocab (V : Type) where
  idx : V → Str → Res (Option WordIndex)
  wordsLen : V → Nat
  vocabLen : V → Res Nat
  words : V → List Str

/-- src/chunks/vocab/mod.rs:68-76, `create_indices`: inserts the words with their positions in order
(a later duplicate overwrites an earlier one). -/
def createIndices (words : List Str) : HMap Str Nat := indexMap words

/-- src/chunks/vocab/simple.rs:13-16, `struct SimpleVocab`. -/
structure SimpleVocab where
  indices : HMap Str Nat
  words : List Str
deriving DecidableEq, Repr

/-- src/chunks/vocab/simple.rs:24-33, `SimpleVocab::new`. -/
def SimpleVocab.new (words : List Str) : Res SimpleVocab := do
  let indices := createIndices words
  Res.assert (words.length = indices.len)
  return ⟨indices, words⟩

/-- src/chunks/vocab/simple.rs:36-51. -/
instance : Vocab SimpleVocab where
  idx v w := .ok ((v.indices.get w).map .word)
  wordsLen v := v.indices.len
  vocabLen v := .ok v.indices.len
  words v := v.words

/-- src/chunks/vocab/subword.rs:33-42, `struct SubwordVocab`. -/
structure SubwordVocab (I : Type) where
  bow : Str
  eow : Str
  indexer : I
  indices : HMap Str Nat
  words : List Str
  minN : Nat
  maxN : Nat
deriving DecidableEq, Repr

/-- src/chunks/vocab/subword.rs:26,20,23,29. -/
abbrev BucketSubwordVocab := SubwordVocab HashIndexer
/-- src/chunks/vocab/subword.rs:20. -/
abbrev FastTextSubwordVocab := SubwordVocab FastTextIndexer
/-- src/chunks/vocab/subword.rs:23. -/
abbrev FloretSubwordVocab := SubwordVocab FloretIndexer
/-- src/chunks/vocab/subword.rs:29. -/
abbrev ExplicitSubwordVocab := SubwordVocab ExplicitIndexer

namespace SubwordVocab

/-- src/chunks/vocab/subword.rs:48, `DEFAULT_BOW`. -/
def defaultBow : Str := ['<']
/-- src/chunks/vocab/subword.rs:49, `DEFAULT_EOW`. -/
def defaultEow : Str := ['>']

variable {I : Type} [Indexer I]

/-- src/chunks/vocab/subword.rs:77-117, `new_with_boundaries`. `usize::try_from(u64)` always succeeds
on a 64-bit target, hence the second assertion only forces the evaluation of `upper_bound`. -/
def newWithBoundaries (words : List Str) (minN maxN : Nat) (indexer : I) (bow eow : Str) :
    Res (SubwordVocab I) := do
  let indices := createIndices words
  Res.assert (words.length = indices.len)
  let ub ← Indexer.upperBound indexer
  Res.assert (words.length + ub ≤ usizeMax)
  return { bow, eow, indexer, indices, words, minN, maxN }

/-- src/chunks/vocab/subword.rs:58-67, `new`. -/
def new (words : List Str) (minN maxN : Nat) (indexer : I) : Res (SubwordVocab I) :=
  newWithBoundaries words minN maxN indexer defaultBow defaultEow

/-- src/chunks/vocab/subword.rs:144-152, `bracket`. -/
def bracket (v : SubwordVocab I) (w : Str) : Str := v.bow ++ w ++ v.eow

/-- src/chunks/vocab/subword.rs:231-245, `subword_indices`. The `+` cannot overflow for indices below
the upper bound (asserted by the constructor); unbounded `Nat` addition is used. -/
def subwordIndices (v : SubwordVocab I) (w : Str) : Res (Option (List Nat)) := do
  let l ← FF.subwordIndices v.indexer (v.bracket w) v.minN v.maxN
  let l := l.map (· + v.indices.len)
  return if l.isEmpty then none else some l

/-- src/chunks/vocab/subword.rs:195-216, `ngram_indices`. -/
def ngramIndices (v : SubwordVocab I) (w : Str) : Res (Option (List (Str × List Nat))) := do
  let l ← subwordIndicesWithNgrams v.indexer (v.bracket w) v.minN v.maxN
  let l := l.map fun p => (p.1, p.2.map (· + v.indices.len))
  return if l.isEmpty then none else some l

/-- src/chunks/vocab/subword.rs:159-167, `idx`. -/
def idx (v : SubwordVocab I) (w : Str) : Res (Option WordIndex) :=
  match v.indices.get w with
  | some i => .ok (some (.word i))
  | none => do
    let l ← v.subwordIndices w
    return l.map .subword

/-- src/chunks/vocab/subword.rs:155-180. -/
instance : Vocab (SubwordVocab I) where
  idx := idx
  wordsLen v := v.indices.len
  vocabLen v := do return v.indices.len + (← Indexer.upperBound v.indexer)
  words v := v.words

end SubwordVocab

/-- src/chunks/vocab/subword.rs:471-485, one n-gram of the double loop of `to_explicit`. -/
def toExplicitStep (m : HMap Str Nat) (p : Str × List Nat) : Res (HMap Str Nat) :=
  match p.2 with
  | [] => .ok m
  | [i] => .ok (match m.get p.1 with
    | some _ => m
    | none => m.insert p.1 i)
  | _ :: _ :: _ => .err .ngramConversion

/-- src/chunks/vocab/subword.rs:457-486: the n-gram index collected by `to_explicit`. -/
def toExplicitIndex {I : Type} [Indexer I] (v : SubwordVocab I) : Res (HMap Str Nat) :=
  v.words.foldlM (fun m w => do
    let l ← subwordIndicesWithNgrams v.indexer (v.bracket w) v.minN v.maxN
    l.foldlM toExplicitStep m) HMap.empty

/-- src/chunks/vocab/subword.rs:457-490, `SubwordVocab::to_explicit`. `order` is the order in which
the hash map is iterated when it is passed to `new_with_indices`: any reordering of its entries. -/
def toExplicit {I : Type} [BucketIndexer I] (order : List (Str × Nat) → List (Str × Nat))
    (v : SubwordVocab I) : Res (ExplicitSubwordVocab × HMap Nat Nat) := do
  let m ← toExplicitIndex v
  let (ix, mapping) ← ExplicitIndexer.newWithIndices (order m.entries)
  let ev ← SubwordVocab.new v.words v.minN v.maxN ix
  return (ev, mapping)

end FF
