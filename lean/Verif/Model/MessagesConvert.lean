import Verif.Model.MessagesCompat
import Verif.Model.Quantize

/-!
# Whole errors of conversions and of quantization
-/

namespace FF

namespace EConvert

/-- A loop with `?` in its body: src/chunks/vocab/subword.rs:468-485. -/
def loop {α β : Type} (f : β → α → ERes β) : List α → β → ERes β
  | [], b => .ok b
  | a :: as, b => (f b a).bind fun b' => loop f as b'

/-- src/chunks/vocab/subword.rs:471-485, as `toExplicitStep`. -/
def step (m : HMap Str Nat) (p : Str × List Nat) : ERes (HMap Str Nat) :=
  match p.2 with
  | [] => .ok m
  | [i] => .ok (match m.get p.1 with
    | some _ => m
    | none => m.insert p.1 i)
  | _ :: _ :: _ =>
    .err (.ngramConversion "Vocab maps n-gram to multiple indices, cannot be converted to explicit n-gram vocab.")

/-- src/chunks/vocab/subword.rs:457-486, as `toExplicitIndex`. Indexers return no errors. -/
def index {I : Type} [Indexer I] (v : SubwordVocab I) : ERes (HMap Str Nat) :=
  loop (fun m w => (ERes.quiet (subwordIndicesWithNgrams v.indexer (v.bracket w) v.minN v.maxN)).bind fun l => loop step l m)
    v.words HMap.empty

/-- src/chunks/vocab/subword.rs:457-490, as `toExplicit`. The constructors return no errors. -/
def vocab {I : Type} [BucketIndexer I] (order : List (Str × Nat) → List (Str × Nat)) (v : SubwordVocab I) :
    ERes (ExplicitSubwordVocab × HMap Nat Nat) :=
  (index v).bind fun m => ERes.quiet do
    let (ix, mapping) ← ExplicitIndexer.newWithIndices (order m.entries)
    let ev ← SubwordVocab.new v.words v.minN v.maxN ix
    return (ev, mapping)

/-- src/embeddings.rs:364-386, as `Embeddings.toExplicit`. What follows the conversion of the vocabulary returns no errors. -/
def embeddings {T I S S' F : Type} [BucketIndexer I] [Storage S F] [Storage S' F] [CloneFromMapping S S']
    (order : List (Str × Nat) → List (Str × Nat)) (order2 : List (Nat × Nat) → List (Nat × Nat))
    (e : Embeddings T (SubwordVocab I) S F) : ERes (Embeddings T ExplicitSubwordVocab S' F) :=
  (vocab order e.vocab).bind fun r => ERes.quiet do
    let vl ← Vocab.vocabLen r.1
    let mapping ← Embeddings.explicitMapping (Vocab.wordsLen r.1) vl (order2 r.2.entries)
    let s ← CloneFromMapping.cloneFromMapping e.storage mapping
    Embeddings.newWithMaybeNorms none r.1 s e.norms

/-- src/embeddings.rs:340-361, `try_to_explicit`. -/
def wrapped {T S S' F : Type} [Storage S F] [Storage S' F] [CloneFromMapping S S']
    (order : List (Str × Nat) → List (Str × Nat)) (order2 : List (Nat × Nat) → List (Nat × Nat))
    (e : Embeddings T VocabWrap S F) : ERes (Embeddings T ExplicitSubwordVocab S' F) :=
  match e.vocab with
  | .bucket v => embeddings order order2 (⟨e.metadata, e.storage, v, e.norms⟩ : Embeddings T _ S F)
  | .fastText v => embeddings order order2 (⟨e.metadata, e.storage, v, e.norms⟩ : Embeddings T _ S F)
  | .simple _ => .err (.conversion "SimpleVocab" "ExplicitVocab")
  | .explicit _ => .err (.conversion "ExplicitVocab" "ExplicitVocab")
  | .floret _ => .err (.conversion "FloretSubwordVocab" "ExplicitVocab")

/-- The `ReductiveError` in `Error::Quantization` (src/error.rs:52-53): the one that the crate makes itself
(src/chunks/storage/quantized.rs:460-464), or one of the trainer (:486). -/
inductive Refusal where
  | bits (max : Nat)
  | trainer
deriving DecidableEq, Repr

/-- The outcome of `quantize_using`, src/chunks/storage/quantized.rs:443-455. -/
inductive QRes (α : Type) where
  | ok (a : α)
  | err (r : Refusal)
  | panic
deriving DecidableEq, Repr

/-- Only the kind: `Error::Quantization`, src/error.rs:52-53. -/
def QRes.kinds {α : Type} : QRes α → Res α
  | .ok a => .ok a
  | .err _ => .err .quantization
  | .panic => .panic

/-- What is left are errors of the trainer: src/chunks/storage/quantized.rs:486. -/
def QRes.training {α : Type} : Res α → QRes α
  | .ok a => .ok a
  | .err _ => .err .trainer
  | .panic => .panic

/-- src/chunks/storage/quantized.rs:443-498, as `quantizeStorage`. -/
def quantizeStorage {S F : Type} [Scalar F] [Storage S F] [StorageView S F] (t : PqTrainer F)
    (nSubquantizers nBits nIterations nAttempts : Nat) (normalize : Bool) (s : S) : QRes (QuantizedArray F) :=
  if nBits > maxSubquantizerBits (Storage.shape s).1 then .err (.bits (maxSubquantizerBits (Storage.shape s).1))
  else QRes.training do
    let m ← StorageView.view s
    let embeds := quantizeInput normalize m
    let q ← asQuantizationError (t.train nSubquantizers nBits nIterations nAttempts embeds.1)
    let codes ← t.quantizeBatch q embeds.1
    return ⟨q, codes, embeds.2⟩

end EConvert

end FF
