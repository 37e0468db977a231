import Verif.Model.Embeddings

/-!
# Quantization (src/chunks/storage/quantized.rs:443-498, src/embeddings.rs:659-704)
-/

namespace FF

/-- The functions of crate reductive that `quantize_using` calls (src/chunks/storage/quantized.rs:478-488):
`train` is `T::train_pq_using` with the arguments `n_subquantizers`, `n_subquantizer_bits`, `n_iterations`,
`n_attempts` and the matrix (the random number generator is part of the function), `quantizeBatch` is
`QuantizeVector::quantize_batch`. They are parameters of the model. -/
structure PqTrainer (F : Type) where
  train : Nat → Nat → Nat → Nat → Mat F → Res (Pq F)
  quantizeBatch : Pq F → Mat F → Res (Mat UInt8)

/-- src/chunks/storage/quantized.rs:458, `min(8, (n as f64).log2().trunc() as u32)`. The logarithm is taken
exactly (assumed: `f64::log2` truncates correctly below 256 and is at least 8 from there on); `log2(0)` is
`-inf`, which the cast saturates to 0. -/
def maxSubquantizerBits (n : Nat) : Nat := min 8 (Nat.log2 n)

/-- src/chunks/storage/quantized.rs:467-476: the matrix that is quantized and the stored norms. A row is
divided by its norm whatever the norm is. -/
def quantizeInput {F : Type} [Scalar F] (normalize : Bool) (m : Mat F) : Mat F × Option (List F) :=
  if normalize then
    let norms := m.rows.map fun r => Scalar.sqrt (Scalar.dot r r)
    (⟨m.cols, m.rows.zipWith (fun r n => r.map (Scalar.div · n)) norms⟩, some norms)
  else (m, none)

/-- `map_err(Error::Quantization)`, src/chunks/storage/quantized.rs:486. -/
def asQuantizationError {α : Type} : Res α → Res α
  | .ok a => .ok a
  | .err _ => .err .quantization
  | .panic => .panic

/-- src/chunks/storage/quantized.rs:443-498, `quantize_using` for a storage. -/
def quantizeStorage {S F : Type} [Scalar F] [Storage S F] [StorageView S F] (t : PqTrainer F)
    (nSubquantizers nBits nIterations nAttempts : Nat) (normalize : Bool) (s : S) :
    Res (QuantizedArray F) := do
  if nBits > maxSubquantizerBits (shape s).1 then .err .quantization
  else
    let m ← view s
    let embeds := quantizeInput normalize m
    let q ← asQuantizationError (t.train nSubquantizers nBits nIterations nAttempts embeds.1)
    let codes ← t.quantizeBatch q embeds.1
    return ⟨q, codes, embeds.2⟩

/-- src/embeddings.rs:676-704, `quantize_using` for embeddings. -/
def Embeddings.quantize {T V S F : Type} [Scalar F] [Storage S F] [StorageView S F] (t : PqTrainer F)
    (nSubquantizers nBits nIterations nAttempts : Nat) (normalize : Bool) (e : Embeddings T V S F) :
    Res (Embeddings T V (QuantizedArray F) F) := do
  let storage ← quantizeStorage t nSubquantizers nBits nIterations nAttempts normalize e.storage
  return ⟨e.metadata, storage, e.vocab, e.norms⟩

end FF
