import Verif.Model.Accessors

/-!
# Iterators, one call at a time

The iterators of src/subword.rs and src/embeddings.rs. Elsewhere in the model they are used up at once; here `next` is called one at a
time, by a caller that may stop before the end or go on after it.
-/

namespace FF

/-- The value of call number `n` (from 0) of an iterator's `next`. After a panic there are no further calls. The caller of e.g.
src/subword.rs:345-376. -/
def nthCall {α σ : Type} (next : σ → Res (Option α × σ)) : Nat → σ → Res (Option α)
  | 0, s => do
    let (x, _) ← next s
    return x
  | n + 1, s => do
    let (_, s) ← next s
    nthCall next n s

namespace Embeddings
variable {T V S F : Type} [Scalar F] [Vocab V] [Storage S F]

/-- src/embeddings.rs:723-726, `struct Iter`, and :740-744, `struct IterWithNorms`: the words that are left, and the position of the
first of them (`Enumerate`). The storage and the norms are passed to `next`. -/
structure Iter where
  idx : Nat
  words : List Str

/-- src/embeddings.rs:287-292, `Embeddings::iter` (= `into_iter`, :431-433), and :307-313, `iter_with_norms`. -/
def newIter (e : Embeddings T V S F) : Iter := ⟨0, Vocab.words e.vocab⟩

/-- src/embeddings.rs:731-735, `Iter::next`. -/
def nextItem (e : Embeddings T V S F) (it : Iter) : Res (Option (Str × List F) × Iter) :=
  match it.words with
  | [] => .ok (none, it)
  | w :: ws => do
    let v ← Storage.embedding e.storage it.idx
    return (some (w, v), ⟨it.idx + 1, ws⟩)

/-- src/embeddings.rs:749-759, `IterWithNorms::next`. -/
def nextWithNorm (e : Embeddings T V S F) (it : Iter) : Res (Option (Str × List F × F) × Iter) :=
  match it.words with
  | [] => .ok (none, it)
  | w :: ws => do
    let v ← Storage.embedding e.storage it.idx
    let n ← e.normAt it.idx
    return (some (w, v, n), ⟨it.idx + 1, ws⟩)

end Embeddings

end FF
