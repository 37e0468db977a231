import Verif.Model.Embeddings

/-!
# Where the stream is left after reading embeddings

`Embeddings.read` does not say where the stream is afterwards. Here the position is added: after norms that were read it is
behind them, and after an unsuccessful attempt to read norms it is where that attempt gave up.
-/

namespace FF
namespace Embeddings

open Rd

/-- The position after `NdNorms::read_chunk`, src/chunks/norms.rs:53-85, whether it succeeds or not. `none`: the data ends
inside of a value; then the documentation of `Read::read_exact` leaves the position open. -/
def normsStop (d : Bytes) (p : Nat) : Option Nat :=
  match readU32 d p with
  | .ok (c, p) => if c ≠ ChunkId.ndNorms.code then some p else
    match readU64 d p with
    | .ok (_, p) =>
      match readU64 d p with
      | .ok (len, p) =>
        match readU32 d p with
        | .ok (t, p) => if t ≠ f32TypeId then some p else
          match readF32s len d (p + padding 4 p) with
          | .ok (_, p) => some p
          | _ => none
        | _ => none
      | _ => none
    | _ => none
  | _ => none

variable {T V S : Type} [Toml T]

/-- src/embeddings.rs:519-547, `read_embeddings`, together with the position of the stream afterwards. The error of the attempt
to read norms is dropped (:539) but the stream is not moved back. -/
def readOn [ReadChunk V] [ReadChunk S] (d : Bytes) (pos : Nat) : Res (Embeddings T V S F32 × Option Nat) := do
  let ((m, v), p) ← readHead (T := T) (V := V) d pos
  let (s, p) ← (readChunk : Rd S) d p
  let n ← orNone ((readChunk : Rd (NdNorms F32)) d p)
  return (⟨m, s, v, n.map (·.1)⟩, normsStop d p)

/-- Several calls of `write_embeddings` (src/embeddings.rs:555-586) with one writer. -/
def writeMany [WriteChunk V] [WriteChunk S] : List (Embeddings T V S F32) → Nat → W
  | [] => fun _ => W.nil
  | e :: es => andThen e.write (writeMany es)

end Embeddings
end FF
