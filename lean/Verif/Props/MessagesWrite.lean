import Verif.Lemmas.MessagesWrite
import Verif.Props.Lookup

/-!
# C112: what the writers say when the sink fails
-/

namespace FF

open Piece Layout

/-! ## Specification: the fields of every file in the order in which they are written -/

namespace OutPieces

/-- A field with its description. -/
def field (desc : String) (len : Nat) : Piece := .field (.write desc) len

/-- A string with its length. -/
def string (s : Str) : List Piece := [field "Cannot write string length" 4, field "Cannot write string" (utf8 s).length]

/-- An n-gram with its length and its index. -/
def ngram (s : Str) : List Piece :=
  [field "Cannot write ngram length" 4, field "Cannot write ngram" (utf8 s).length, field "Cannot write ngram idx" 8]

/-- The header, with `n` identifiers. -/
def header (n : Nat) : List Piece :=
  [field "Cannot write magic" 4, field "Cannot write model version" 4, field "Cannot write chunk identifiers length" 4,
   field "Cannot write chunk identifier" (4 * n)]

/-- Metadata with the given text. -/
def metadata (text : Str) : List Piece :=
  [field "Cannot write metadata chunk identifier" 4, field "Cannot write metadata length" 8,
   field "Cannot write metadata" (utf8 text).length]

/-- A vocabulary of words. -/
def simple (v : SimpleVocab) : List Piece :=
  [field "Cannot write vocabulary chunk identifier" 4, field "Cannot write vocabulary chunk length" 8,
   field "Cannot write vocabulary length" 8] ++ v.words.flatMap string

/-- A vocabulary with buckets. -/
def bucketed {I : Type} (v : SubwordVocab I) : List Piece :=
  [field "Cannot write subword vocabulary chunk identifier" 4, field "Cannot write subword vocabulary chunk length" 8,
   field "Cannot write vocabulary length" 8, field "Cannot write minimum n-gram length" 4,
   field "Cannot write maximum n-gram length" 4, field "Cannot write number of buckets" 4] ++ v.words.flatMap string

/-- A vocabulary with explicit n-grams. The number of n-grams is called length. -/
def explicit (v : ExplicitSubwordVocab) : List Piece :=
  [field "Cannot write subword vocabulary chunk identifier" 4, field "Cannot write subword vocabulary chunk length" 8,
   field "Cannot write vocabulary length" 8, field "Cannot write ngram length" 8,
   field "Cannot write minimum n-gram length" 4, field "Cannot write maximum n-gram length" 4] ++
  v.words.flatMap string ++ v.indexer.ngrams.flatMap ngram

/-- A string that is described by its role. -/
def marker (role : String) (s : Str) : List Piece :=
  [.field (.context role (.write "Cannot write string length")) 4,
   .field (.context role (.write "Cannot write string")) (utf8 s).length]

/-- A floret vocabulary. -/
def floret (v : FloretSubwordVocab) : List Piece :=
  [field "Cannot write subword vocabulary chunk identifier" 4, field "Cannot write subword vocabulary chunk length" 8,
   field "Cannot write minimum n-gram length" 4, field "Cannot write maximum n-gram length" 4,
   field "Cannot write number of buckets" 8, field "Cannot write number of hashes" 4, field "Cannot write hasher seed" 4] ++
  marker "Cannot write begin of word marker" v.bow ++ marker "Cannot write end of word marker" v.eow

/-- A vocabulary of any kind. -/
def vocab : VocabWrap → List Piece
  | .simple v => simple v
  | .bucket v => bucketed v
  | .fastText v => bucketed v
  | .explicit v => explicit v
  | .floret v => floret v

/-- Padding at position `p`: up to the next multiple of 4, and four bytes if `p` is one itself. -/
def align (p : Nat) : Piece := field "Cannot write padding" (4 - p % 4)

/-- A matrix that starts at `pos`. -/
def ndArray (pos : Nat) (m : Mat F32) : List Piece :=
  [field "Cannot write embedding matrix chunk identifier" 4, field "Cannot write embedding matrix chunk length" 8,
   field "Cannot write number of rows of the embedding matrix" 8,
   field "Cannot write number of columns of the embedding matrix" 4,
   field "Cannot write embedding matrix type identifier" 4, align (pos + 28),
   field "Cannot write embedding matrix component" (4 * m.rows.flatten.length)]

/-- A quantized matrix that starts at `pos`. The number of centroids is called number of subquantizers. -/
def quantized (pos : Nat) (q : Pq F32) (codes : Mat UInt8) (norms : Option (List F32)) : List Piece :=
  [field "Cannot write quantized embedding matrix chunk identifier" 4,
   field "Cannot write quantized embedding matrix chunk length" 8,
   field "Cannot write quantized embedding matrix projection" 4, field "Cannot write quantized embedding matrix norms" 4,
   field "Cannot write quantized embedding length" 4, field "Cannot write reconstructed embedding length" 4,
   field "Cannot write number of subquantizers" 4, field "Cannot write number of quantized embeddings" 8,
   field "Cannot write quantized embedding type identifier" 4,
   field "Cannot write reconstructed embedding type identifier" 4, align (pos + 48)] ++
  (q.projection.toList.map fun p => field "Cannot write projection matrix component" (4 * p.rows.flatten.length)) ++
  (q.quantizers.map fun m => field "Cannot write subquantizer component" (4 * m.rows.flatten.length)) ++
  (norms.toList.map fun ns => field "Cannot write norm vector component" (4 * ns.length)) ++
  [field "Cannot write quantized embedding matrix component" codes.rows.flatten.length]

/-- Norms that start at `pos`. -/
def norms (pos : Nat) (ns : List F32) : List Piece :=
  [field "Cannot write norms chunk identifier" 4, field "Cannot write norms chunk length" 8,
   field "Cannot write norms vector length" 8, field "Cannot write norms vector type identifier" 4, align (pos + 24),
   field "Cannot write norm" (4 * ns.length)]

/-- A storage of any kind that starts at `pos`. -/
def Storage (pos : Nat) (ps : List Piece) : StorageWrap → Prop
  | .ndArray a => ps = ndArray pos a.inner
  | .quantized a => ps = quantized pos a.quantizer a.codes a.norms
  | .mmapArray a => ∃ m, StorageView.view a = .ok m ∧ ps = ndArray pos m
  | .mmapQuantized a => ∃ codes, a.codesView = .ok codes ∧ ps = quantized pos a.quantizer codes a.norms

/-- A storage with a view that starts at `pos`. -/
def View (pos : Nat) (ps : List Piece) : StorageViewWrap → Prop
  | .ndArray a => ps = ndArray pos a.inner
  | .mmapArray a => ∃ m, StorageView.view a = .ok m ∧ ps = ndArray pos m

/-- A file that starts at `pos`: header, metadata, vocabulary (`vs`), storage and norms. -/
def File {T V S : Type} [Toml T] (storage : Nat → List Piece → Prop) (pos : Nat) (e : Embeddings T V S F32) (vs ps : List Piece) :
    Prop :=
  let head := header (2 + e.metadata.toList.length + e.norms.toList.length) ++
    e.metadata.toList.flatMap (fun m => metadata (Toml.print m.inner)) ++ vs
  ∃ ss, storage (pos + total head) ss ∧
    ps = head ++ ss ++ e.norms.toList.flatMap fun n => norms (pos + total (head ++ ss)) n.inner

/-- The first line of word2vec files and of text files with dimensions. -/
def ShapeLine (words dims : Nat) (p : Piece) : Prop :=
  ∃ a b, Shown a words ∧ Shown b dims ∧
    p = field "Cannot write word embedding matrix shape" (utf8 a ++ [32] ++ utf8 b ++ [10]).length

/-- A word2vec entry. -/
def entry {F : Type} (p : Str × List F) : List Piece :=
  [field "Cannot write token" ((utf8 p.1).length + 1), field "Cannot write embedding component" (4 * p.2.length),
   field "Cannot write embedding separator" 1]

/-- A line of a text file. -/
def line {F : Type} [FloatText F] (p : Str × List F) : Piece := field "Cannot write word embedding" (textLine p.1 p.2).length

/-- A fastText file for `words` with `dims` dimensions and `buckets` buckets. The type of the model has the description of the
loss, and the type of an entry has that of the reader. -/
def fastText (words : List Str) (dims buckets : Nat) : List Piece :=
  [field "Cannot write fastText magic" 4, field "Cannot write fastText version" 4,
   field "Cannot write number of dimensions" 4, field "Cannot write window size" 4, field "Cannot write number of epochs" 4,
   field "Cannot write minimum count" 4, field "Cannot write negative samples" 4, field "Cannot write word n-gram length" 4,
   field "Cannot write loss function" 4, field "Cannot write loss function" 4, field "Cannot write number of buckets" 4,
   field "Cannot write minimum subword length" 4, field "Cannot write maximum subword length" 4,
   field "Cannot write LR update rate" 4, field "Cannot write sampling threshold" 8,
   field "Cannot write vocabulary size" 4, field "Cannot write number of words" 4, field "Cannot write number of labels" 4,
   field "Cannot write number of tokens" 8, field "Cannot write pruned vocabulary size" 8] ++
  (words.flatMap fun w => [field "Cannot write word" (utf8 w).length, field "Cannot write word terminator" 1,
    field "Cannot write word frequency" 8, .field (.read "Cannot read entry type") 1]) ++
  [field "Cannot write quantization status" 1, field "Cannot write number of embedding matrix rows" 8,
   field "Cannot write number of embedding matrix columns" 8,
   field "Cannot write embedding" (4 * (words.length * dims)),
   field "Cannot write subword embedding" (4 * (buckets * dims))]

end OutPieces

/-- `w` is the writer `v` with messages, for sinks that answer `n` calls of `stream_position`. Without the messages, everything is
as for `v`. If `v` succeeds by itself, then the file consists of pieces as given by `L`, and a sink that accepts `cap` bytes gets
the first `cap` bytes of the file, and the error is that of the piece that the sink did not accept completely. -/
def WritesAs (n : Nat) (w : EW) (v : W) (L : List Piece → Prop) : Prop :=
  (∀ cap tells, n ≤ tells → ((w.run cap tells).1, (w.run cap tells).2.kinds) = v.run cap) ∧
  (v.Good → ∃ ps, L ps ∧ total ps = v.size ∧ ∀ cap tells, n ≤ tells →
    w.run cap tells = (v.bytes.take cap, match missing ps cap with
      | some e => .err e
      | none => .ok ()))

/-! ## Proofs -/

open EW (Erases Says)

theorem WritesAs.of {n : Nat} {w : EW} {v : W} {L : List Piece → Prop} (h : Erases n w v)
    (hs : v.Good → ∃ ps, L ps ∧ Says n w ps) : WritesAs n w v L :=
  ⟨h.run, fun hg => by
    obtain ⟨ps, hl, hp⟩ := hs hg
    obtain ⟨h1, h2⟩ := hp.run h
    exact ⟨ps, hl, h1, h2⟩⟩

theorem WritesAs.of' {n : Nat} {w : EW} {v : W} {ps : List Piece} (h : Erases n w v) (hs : Says n w ps) : WritesAs n w v (· = ps) :=
  .of h fun _ => ⟨ps, rfl, hs⟩

/-- Splits a writer into its steps. -/
macro "erases" : tactic => `(tactic| repeat' first
  | exact Erases.u32 _ _ | exact Erases.u64 _ _ | exact Erases.emit _ _ | exact Erases.emitRead _ _ | exact Erases.f32 _ _
  | (refine Erases.tell ?_ rfl) | (refine Erases.seq0 ?_ ?_) | (refine Erases.each (fun _ => ?_) _))

/-- Splits a writer into its pieces. -/
macro "says" : tactic => `(tactic| repeat' first
  | exact Says.u32 _ _ | exact Says.u64 _ _ | exact Says.f32s _ _ | exact Says.emit _ _ | exact Says.emitRead _ _ | exact Says.bits _ _
  | (apply Says.tell) | (apply Says.seq0))

theorem erases_header (h : Header) : Erases 0 (EWrite.header h) h.write := by
  unfold EWrite.header Header.write
  erases

theorem says_header (h : Header) : Says 0 (EWrite.header h) (OutPieces.header h.ids.length) := by
  unfold EWrite.header
  apply Says.cast
  · apply Says.seq0 (hb := Says.eachSame (k := fun _ => 4) fun i _ => Says.u32 _ _)
    says
  · rw [Says.sum_const]; simp [OutPieces.header, OutPieces.field, magic]

theorem erases_metadata {T : Type} [Toml T] (m : Metadata T) : Erases 0 (EWrite.metadata m) (writeMetadata m) := by
  unfold EWrite.metadata writeMetadata
  erases

theorem says_metadata {T : Type} [Toml T] (m : Metadata T) : Says 0 (EWrite.metadata m) (OutPieces.metadata (Toml.print m.inner)) := by
  unfold EWrite.metadata
  apply Says.cast
  · says
  · rfl

theorem erases_string (s : Str) : Erases 0 (EWrite.string s) (writeString s) := by
  unfold EWrite.string writeString
  erases

theorem says_string (s : Str) : Says 0 (EWrite.string s) (OutPieces.string s) := by
  unfold EWrite.string
  apply Says.cast
  · says
  · rfl

theorem erases_items (ws : List Str) : Erases 0 (EW.each EWrite.string ws) (writeVocabItems ws) := Erases.each erases_string ws

theorem says_items (ws : List Str) : Says 0 (EW.each EWrite.string ws) (ws.flatMap OutPieces.string) :=
  Says.each fun s _ => says_string s

theorem erases_simple (v : SimpleVocab) : Erases 1 (EWrite.simple v) v.write := by
  unfold EWrite.simple SimpleVocab.write
  refine Erases.seq0 ?_ (erases_items _)
  erases

theorem says_simple (v : SimpleVocab) : Says 1 (EWrite.simple v) (OutPieces.simple v) := by
  unfold EWrite.simple
  apply Says.cast
  · apply Says.seq0 (hb := says_items _)
    says
  · rfl

theorem erases_bucketed {I : Type} [BucketIndexer I] (v : SubwordVocab I) (id : ChunkId) :
    Erases 0 (EWrite.bucketed v id) (writeBucketed v id) := by
  unfold EWrite.bucketed writeBucketed
  refine Erases.seq0 ?_ (erases_items _)
  erases

theorem says_bucketed {I : Type} [BucketIndexer I] (v : SubwordVocab I) (id : ChunkId) :
    Says 0 (EWrite.bucketed v id) (OutPieces.bucketed v) := by
  unfold EWrite.bucketed
  apply Says.cast
  · apply Says.seq0 (hb := says_items _)
    says
  · rfl

theorem erases_ngram (ix : ExplicitIndexer) (g : Str) : Erases 0 (EWrite.ngram ix g) (writeNgram ix g) := by
  unfold EWrite.ngram writeNgram
  generalize Indexer.indexNgram ix (NGram.ofStr g) = r
  match r with
  | .ok [] => exact Erases.done' rfl
  | .ok [i] => dsimp only; erases
  | .ok (_ :: _ :: _) => exact Erases.done' rfl
  | .err e => exact Erases.done' (by cases e <;> rfl)
  | .panic => exact Erases.done' rfl

theorem says_ngram (ix : ExplicitIndexer) (g : Str) (h : (writeNgram ix g).Good) : Says 0 (EWrite.ngram ix g) (OutPieces.ngram g) := by
  unfold writeNgram at h
  unfold EWrite.ngram
  generalize Indexer.indexNgram ix (NGram.ofStr g) = r at h ⊢
  match r, h with
  | .ok [i], _ =>
    dsimp only
    apply Says.cast
    · says
    · rfl

theorem erases_explicit (v : ExplicitSubwordVocab) : Erases 0 (EWrite.explicit v) (writeExplicit v) := by
  unfold EWrite.explicit writeExplicit
  refine Erases.seq0 (Erases.seq0 ?_ (erases_items _)) (Erases.each (erases_ngram _) _)
  erases

theorem says_explicit (v : ExplicitSubwordVocab) (h : (writeExplicit v).Good) :
    Says 0 (EWrite.explicit v) (OutPieces.explicit v) := by
  unfold writeExplicit at h
  have h := W.good_each_iff.mp (W.good_seq_iff.mp h).2
  unfold EWrite.explicit
  apply Says.cast
  · apply Says.seq0 (hb := Says.each fun g hg => says_ngram _ g (h g hg))
    apply Says.seq0 (hb := says_items _)
    says
  · rfl

theorem says_marker (role : String) (s : Str) : Says 0 (EW.inContext role (EWrite.string s)) (OutPieces.marker role s) :=
  ((Says.put (leBytes 4 (strLen s)) (.context role (.write "Cannot write string length"))).seq0
    (Says.put (utf8 s) (.context role (.write "Cannot write string")))).cast (by simp [OutPieces.marker])

theorem erases_floret (v : FloretSubwordVocab) : Erases 0 (EWrite.floret v) (writeFloret v) := by
  unfold EWrite.floret writeFloret
  refine Erases.seq0 (Erases.seq0 ?_ ((erases_string _).inContext _)) ((erases_string _).inContext _)
  erases

theorem says_floret (v : FloretSubwordVocab) : Says 0 (EWrite.floret v) (OutPieces.floret v) := by
  unfold EWrite.floret
  apply Says.cast
  · apply Says.seq0 (hb := says_marker _ _)
    apply Says.seq0 (hb := says_marker _ _)
    says
  · rfl

/-- How often the position is asked for: once for a simple vocabulary, never for the others. -/
def OutPieces.positions : VocabWrap → Nat
  | .simple _ => 1
  | _ => 0

theorem erases_vocab (v : VocabWrap) (off : Nat) : Erases (OutPieces.positions v) (EWrite.vocab v) (writeChunk v off) := by
  cases v with
  | simple v => exact erases_simple v
  | explicit v => exact erases_explicit v
  | fastText v => exact erases_bucketed v _
  | floret v => exact erases_floret v
  | bucket v => exact erases_bucketed v _

theorem says_vocab (v : VocabWrap) (off : Nat) (h : (writeChunk v off).Good) :
    Says (OutPieces.positions v) (EWrite.vocab v) (OutPieces.vocab v) := by
  cases v with
  | simple v => exact says_simple v
  | explicit v => exact says_explicit v h
  | fastText v => exact says_bucketed v _
  | floret v => exact says_floret v
  | bucket v => exact says_bucketed v _

theorem pad_len (off : Nat) : (List.replicate (padding 4 (off + 4)) (0 : UInt8)).length = 4 - off % 4 := by
  simp [padding]

theorem says_rows (desc : String) (rows : List (List F32)) :
    Says 0 (EW.each (EW.each (EW.f32 desc)) rows) [.field (.write desc) (4 * rows.flatten.length)] :=
  (Says.eachSame fun r _ => Says.f32s desc r).cast (by
    congr 2
    induction rows with
    | nil => rfl
    | cons r rows ih => simp [ih, Nat.mul_add])

theorem erases_ndArray (m : Mat F32) (off : Nat) : Erases 2 (EWrite.ndArray m off) (writeNdArray m off) := by
  unfold EWrite.ndArray writeNdArray
  erases

theorem says_ndArray (m : Mat F32) (off : Nat) : Says 2 (EWrite.ndArray m off) (OutPieces.ndArray off m) := by
  unfold EWrite.ndArray
  apply Says.cast
  · apply Says.seq0 (hb := says_rows _ _)
    says
  · rw [pad_len, show off % 4 = (off + 28) % 4 by omega]; rfl

theorem erases_quantized (q : Pq F32) (codes : Mat UInt8) (norms : Option (List F32)) (off : Nat) :
    Erases 2 (EWrite.quantized q codes norms off) (writeQuantizedArray q codes norms off) := by
  unfold EWrite.quantized writeQuantizedArray
  erases

theorem says_quantized (q : Pq F32) (codes : Mat UInt8) (norms : Option (List F32)) (off : Nat) :
    Says 2 (EWrite.quantized q codes norms off) (OutPieces.quantized off q codes norms) := by
  have hc : Says 0 (EW.each (EW.each fun c : UInt8 => EW.emit "Cannot write quantized embedding matrix component" [c]) codes.rows)
      [OutPieces.field "Cannot write quantized embedding matrix component" codes.rows.flatten.length] :=
    (Says.eachSame fun r _ => Says.eachSame (k := fun _ => 1) fun c _ => Says.emit _ [c]).cast (by
      congr 2
      induction codes.rows with
      | nil => rfl
      | cons r rows ih => rw [List.map_cons, List.sum_cons, ih, Says.sum_const]; simp)
  unfold EWrite.quantized
  apply Says.cast
  · apply Says.seq0 (hb := hc)
    apply Says.seq0 (hb := Says.each fun ns _ => Says.f32s _ ns)
    apply Says.seq0 (hb := Says.each fun m _ => says_rows _ _)
    apply Says.seq0 (hb := Says.each fun p _ => says_rows _ _)
    says
  · rw [pad_len, show off % 4 = (off + 48) % 4 by omega]
    simp only [OutPieces.quantized, List.map_eq_flatMap]
    rfl

theorem erases_norms (ns : List F32) (off : Nat) : Erases 2 (EWrite.norms ns off) (writeNorms ns off) := by
  unfold EWrite.norms writeNorms
  erases

theorem says_norms (ns : List F32) (off : Nat) : Says 2 (EWrite.norms ns off) (OutPieces.norms off ns) := by
  unfold EWrite.norms
  apply Says.cast
  · says
  · rw [pad_len, show off % 4 = (off + 24) % 4 by omega]; rfl

theorem good_ofView {α : Type} {r : Res α} {f : α → W} (h : (W.ofView r f).Good) : ∃ a, r = .ok a := by
  cases r with
  | ok a => exact ⟨a, rfl⟩
  | err e => cases h
  | panic => cases h

theorem erases_storage (s : StorageWrap) (off : Nat) : Erases 2 (EWrite.storage s off) (writeChunk s off) := by
  cases s with
  | ndArray a => exact erases_ndArray _ off
  | quantized a => exact erases_quantized _ _ _ off
  | mmapArray a => exact Erases.ofView _ fun m => erases_ndArray m off
  | mmapQuantized a => exact Erases.ofView _ fun codes => erases_quantized _ codes _ off

theorem says_storage (s : StorageWrap) (off : Nat) (h : (writeChunk s off).Good) :
    ∃ ps, OutPieces.Storage off ps s ∧ Says 2 (EWrite.storage s off) ps := by
  cases s with
  | ndArray a => exact ⟨_, rfl, says_ndArray _ off⟩
  | quantized a => exact ⟨_, rfl, says_quantized _ _ _ off⟩
  | mmapArray a =>
    obtain ⟨m, hm⟩ := good_ofView h
    exact ⟨_, ⟨m, hm, rfl⟩, Says.ofRes hm (says_ndArray m off)⟩
  | mmapQuantized a =>
    obtain ⟨codes, hm⟩ := good_ofView h
    exact ⟨_, ⟨codes, hm, rfl⟩, Says.ofRes hm (says_quantized _ codes _ off)⟩

theorem erases_view (s : StorageViewWrap) (off : Nat) : Erases 2 (EWrite.storageView s off) (writeChunk s off) := by
  cases s with
  | ndArray a => exact erases_ndArray _ off
  | mmapArray a => exact Erases.ofView _ fun m => erases_ndArray m off

theorem says_view (s : StorageViewWrap) (off : Nat) (h : (writeChunk s off).Good) :
    ∃ ps, OutPieces.View off ps s ∧ Says 2 (EWrite.storageView s off) ps := by
  cases s with
  | ndArray a => exact ⟨_, rfl, says_ndArray _ off⟩
  | mmapArray a =>
    obtain ⟨m, hm⟩ := good_ofView h
    exact ⟨_, ⟨m, hm, rfl⟩, Says.ofRes hm (says_ndArray m off)⟩

/-! ### Files -/

theorem erases_andThen {n m : Nat} {a b : Nat → EW} {a' b' : Nat → W} (ha : ∀ off, Erases n (a off) (a' off))
    (hb : ∀ off, Erases m (b off) (b' off)) (off : Nat) : Erases (n + m) (EWrite.andThen a b off) (Embeddings.andThen a' b' off) := by
  unfold EWrite.andThen Embeddings.andThen
  rw [(ha off).toW]
  exact (ha off).seq (hb _)

theorem says_andThen {n m : Nat} {a b : Nat → EW} {ps qs : List Piece} {off : Nat} (ha : Says n (a off) ps)
    (hb : Says m (b (off + total ps)) qs) : Says (n + m) (EWrite.andThen a b off) (ps ++ qs) := by
  unfold EWrite.andThen
  rw [show (a off).toW.size = total ps from ha.size]
  exact ha.seq hb

theorem chunkIds_length {T V S : Type} [Toml T] [WriteChunk V] [WriteChunk S] (e : Embeddings T V S F32) :
    e.chunkIds.length = 2 + e.metadata.toList.length + e.norms.toList.length := by
  unfold Embeddings.chunkIds
  cases e.metadata <;> cases e.norms <;> rfl

theorem erases_embeddings {T V S : Type} [Toml T] [WriteChunk V] [WriteChunk S] {wv : V → Nat → EW} {ws : S → Nat → EW}
    {k : Nat} (e : Embeddings T V S F32) (hv : ∀ off, Erases k (wv e.vocab off) (writeChunk e.vocab off))
    (hs : ∀ s off, Erases 2 (ws s off) (writeChunk s off)) (off : Nat) : Erases (k + 4) (EWrite.embeddings wv ws e off) (e.write off) := by
  rw [← Nat.zero_add (k + 4)]
  refine erases_andThen (n := 0) (m := k + 4) (fun _ => erases_header _) (Nat.zero_add (k + 4) ▸
    erases_andThen (n := 0) (m := k + 4) (fun off => ?_) (erases_andThen (n := k) (m := 4) hv (erases_andThen (n := 2) (m := 2) (hs _) fun off => ?_))) off
  · cases e.metadata with
    | none => exact Erases.nil
    | some m => exact erases_metadata m
  · cases e.norms with
    | none => exact Erases.nil.le (Nat.zero_le _)
    | some n => exact erases_norms n.inner off

theorem says_le {n m : Nat} {w : EW} {ps : List Piece} (h : Says n w ps) (hm : n ≤ m) : Says m w ps :=
  ⟨h.status, Nat.le_trans h.tells hm, h.size, fun cap tells ht => h.fails cap tells (Nat.le_trans hm ht)⟩

theorem size_of_says {n m : Nat} {w : EW} {v : W} {ps : List Piece} (h : Erases n w v) (hp : Says m w ps) : v.size = total ps := by
  rw [← h.toW]; exact hp.size

theorem says_embeddings {T V S : Type} [Toml T] [WriteChunk V] [WriteChunk S] {wv : V → Nat → EW} {ws : S → Nat → EW}
    {pv : List Piece} {L : Nat → List Piece → Prop} (e : Embeddings T V S F32)
    {k : Nat} (hve : ∀ off, Erases k (wv e.vocab off) (writeChunk e.vocab off))
    (hv : ∀ off, (writeChunk e.vocab off).Good → Says k (wv e.vocab off) pv)
    (hs : ∀ off, (writeChunk e.storage off).Good → ∃ ps, L off ps ∧ Says 2 (ws e.storage off) ps)
    (off : Nat) (hg : (e.write off).Good) : ∃ ps, OutPieces.File L off e pv ps ∧ Says (k + 4) (EWrite.embeddings wv ws e off) ps := by
  obtain ⟨_, hg⟩ := W.good_seq_iff.mp hg
  obtain ⟨_, hg⟩ := W.good_seq_iff.mp hg
  obtain ⟨hgv, hg⟩ := W.good_seq_iff.mp hg
  obtain ⟨hgs, _⟩ := W.good_seq_iff.mp hg
  have h1 := says_header ⟨e.chunkIds⟩
  rw [show (Header.mk e.chunkIds).ids.length = _ from chunkIds_length e] at h1
  have h2 : ∀ o, Says 0 (EWrite.opt (fun m _ => EWrite.metadata m) e.metadata o)
      (e.metadata.toList.flatMap fun m => OutPieces.metadata (Toml.print m.inner)) := by
    intro o
    cases e.metadata with
    | none => exact Says.nil
    | some m => exact (says_metadata m).cast (by simp)
  have e2 : ∀ o, (Embeddings.writeOpt e.metadata o).size =
      total (e.metadata.toList.flatMap fun m => OutPieces.metadata (Toml.print m.inner)) := by
    intro o
    have := h2 o
    revert this
    cases e.metadata with
    | none => intro _; rfl
    | some m => intro h; exact size_of_says (erases_metadata m) h
  have h3 := hv _ hgv
  rw [size_of_says (hve _) h3, e2, size_of_says (erases_header _) h1] at hgs
  rw [e2, size_of_says (erases_header _) h1] at h3
  obtain ⟨ss, hL, h4⟩ := hs _ hgs
  have h5 : ∀ o, Says 2 (EWrite.opt (fun n => EWrite.norms n.inner) e.norms o)
      (e.norms.toList.flatMap fun n => OutPieces.norms o n.inner) := by
    intro o
    cases e.norms with
    | none => exact says_le Says.nil (Nat.zero_le _)
    | some n => exact (says_norms n.inner o).cast (by simp)
  have := says_andThen (a := fun _ => EWrite.header ⟨e.chunkIds⟩) (off := off) h1
    (says_andThen (h2 _) (says_andThen (a := wv e.vocab) h3 (says_andThen (a := ws e.storage) h4 (h5 _))))
  rw [Nat.zero_add, Nat.zero_add] at this
  refine ⟨_, ⟨ss, ?_, rfl⟩, this.cast ?_⟩
  · rw [total_append, total_append, ← Nat.add_assoc, ← Nat.add_assoc]; exact hL
  · simp only [List.append_assoc, total_append, Nat.add_assoc]

/-! ### Other formats -/

section
variable {T V S F : Type} [Vocab V] [Storage S F] [Scalar F]

theorem erases_eachRow (e : Embeddings T V S F) (un : Bool) {f : Str → List F → EW} {g : Str → List F → W}
    (h : ∀ w v, Erases 0 (f w v) (g w v)) : Erases 0 (EWrite.eachRow e un f) (e.eachRow un g) :=
  Erases.each (fun _ => Erases.ofRes _ fun _ => h _ _) _

/-- Loops over values that are computed. -/
theorem says_each_ofRes {α β : Type} {l : List α} {r : α → Res β} {f : α → β → EW} {g : α → β → List Piece}
    (h : ∀ a b, Says 0 (f a b) (g a b)) (hr : ∀ a ∈ l, ∃ b, r a = .ok b) :
    ∃ bs, l.map r = bs.map .ok ∧ Says 0 (EW.each (fun a => EW.ofRes (r a) (f a)) l) ((l.zip bs).flatMap fun p => g p.1 p.2) := by
  induction l with
  | nil => exact ⟨[], rfl, Says.nil⟩
  | cons a l ih =>
    obtain ⟨b, hb⟩ := hr a (by simp)
    obtain ⟨bs, h1, h2⟩ := ih fun a' h' => hr a' (by simp [h'])
    exact ⟨b :: bs, by simp [h1, hb], (Says.ofRes hb (h a b)).seq0 h2⟩

theorem says_eachRow (e : Embeddings T V S F) (un : Bool) {f : Str → List F → EW} {g : Str → List F → List Piece}
    (h : ∀ w v, Says 0 (f w v) (g w v)) (hr : HasRows e) :
    ∃ vs, Outputs e un vs ∧ Says 0 (EWrite.eachRow e un f) (((Vocab.words e.vocab).zip vs).flatMap fun p => g p.1 p.2) := by
  unfold EWrite.eachRow
  obtain ⟨bs, h1, h2⟩ := says_each_ofRes (l := (Vocab.words e.vocab).zipIdx)
    (r := fun p => (do
      let v ← Storage.embedding e.storage p.2
      let n ← e.normAt p.2
      return (v, n) : Res (List F × F)))
    (f := fun p vn => f p.1 (if un = true then Embeddings.intoUnnormalized vn else vn.1))
    (g := fun p vn => g p.1 (if un = true then Embeddings.intoUnnormalized vn else vn.1))
    (fun p vn => h _ _) (by
      rintro ⟨w, i⟩ hm
      rw [List.mem_zipIdx_iff_getElem?] at hm
      exact (rowNorm_ok_iff e i).mpr (hr i (List.getElem?_eq_some_iff.mp hm).1))
  have hl : bs.length = (Vocab.words e.vocab).length := by
    have := congrArg List.length h1
    simpa using this.symm
  refine ⟨bs.map fun vn => if un = true then Embeddings.intoUnnormalized vn else vn.1, ⟨by simpa using hl, ?_⟩, h2.cast ?_⟩
  · intro i v hv
    rw [List.getElem?_map] at hv
    cases hb : bs[i]? with
    | none => rw [hb] at hv; cases hv
    | some vn =>
      rw [hb] at hv
      have hv : (if un = true then Embeddings.intoUnnormalized vn else vn.1) = v := by simpa using hv
      subst hv
      have hi : i < (Vocab.words e.vocab).length := by
        have := (List.getElem?_eq_some_iff.mp hb).1; omega
      have := congrArg (·[i]?) h1
      simp only [List.getElem?_map, hb, List.getElem?_zipIdx, List.getElem?_eq_getElem hi, Option.map_some,
        Option.some.injEq] at this
      obtain ⟨u, hu, this⟩ := Res.bind_eq_ok.mp this
      obtain ⟨n, hn, this⟩ := Res.bind_eq_ok.mp this
      cases this
      rw [Nat.zero_add] at hu hn
      exact ⟨u, n, hu, (normAt_ok_iff e i n).mp hn, intoUnnormalized_spec u n un⟩
  · rw [← zipIdx_zip_flatMap g _ _ 0, List.zip_map_right, List.flatMap_map]
    rfl

omit [Scalar F] in
theorem erases_shapeLine (e : Embeddings T V S F) : Erases 0 (EWrite.shapeLine e) e.shapeLine := Erases.emit _ _

omit [Scalar F] in
theorem says_shapeLine (e : Embeddings T V S F) :
    ∃ p, OutPieces.ShapeLine (Vocab.wordsLen e.vocab) (Storage.shape e.storage).2 p ∧ Says 0 (EWrite.shapeLine e) [p] :=
  ⟨_, ⟨_, _, printNat_shown _, printNat_shown _, rfl⟩, (Says.emit _ _).cast (by
    simp [OutPieces.field, Embeddings.dims])⟩

/-- **C112** (word2vec). -/
theorem c112_word2vec [FloatBits F] (e : Embeddings T V S F) (un : Bool) :
    WritesAs 0 (EWrite.word2vec e un) (e.writeWord2vec un) fun ps => ∃ p vs,
      OutPieces.ShapeLine (Vocab.wordsLen e.vocab) (Storage.shape e.storage).2 p ∧ Outputs e un vs ∧
      ps = p :: ((Vocab.words e.vocab).zip vs).flatMap OutPieces.entry := by
  refine .of ?_ fun hg => ?_
  · refine (erases_shapeLine e).seq0 (erases_eachRow e un fun w v => ?_)
    erases
  · have hr := (c75_word2vec e un).1.mp hg
    obtain ⟨p, hp, hs⟩ := says_shapeLine e
    obtain ⟨vs, ho, hv⟩ := says_eachRow e un (g := fun w v => OutPieces.entry (w, v)) (f := fun word v =>
      EW.emit "Cannot write token" (utf8 word ++ [32]) ++
      EW.each (fun x => EW.f32 "Cannot write embedding component" (FloatBits.toBits x)) v ++
      EW.emit "Cannot write embedding separator" [10]) (fun w v => by
        apply Says.cast
        · says
        · simp [OutPieces.entry, OutPieces.field]) hr
    exact ⟨_, ⟨p, vs, hp, ho, rfl⟩, hs.seq0 hv⟩

theorem erases_text [FloatText F] (e : Embeddings T V S F) (un : Bool) : Erases 0 (EWrite.text e un) (e.writeText un) :=
  erases_eachRow e un fun _ _ => Erases.emit _ _

theorem says_text [FloatText F] (e : Embeddings T V S F) (un : Bool) (hg : (e.writeText un).Good) :
    ∃ vs, Outputs e un vs ∧ Says 0 (EWrite.text e un) (((Vocab.words e.vocab).zip vs).map OutPieces.line) := by
  obtain ⟨vs, ho, hv⟩ := says_eachRow e un (g := fun w v => [OutPieces.line (w, v)]) (f := fun word v =>
    EW.emit "Cannot write word embedding" (utf8 (word ++ ' ' :: Embeddings.joinFloats v) ++ [10])) (fun w v =>
      (Says.emit _ _).cast (by rw [textLine_eq]; rfl)) ((c75_text e un).1.mp hg)
  exact ⟨vs, ho, hv.cast (by rw [List.map_eq_flatMap])⟩

/-- **C112** (text). -/
theorem c112_text [FloatText F] (e : Embeddings T V S F) (un : Bool) :
    WritesAs 0 (EWrite.text e un) (e.writeText un) fun ps => ∃ vs, Outputs e un vs ∧
      ps = ((Vocab.words e.vocab).zip vs).map OutPieces.line :=
  .of (erases_text e un) fun hg => by
    obtain ⟨vs, ho, hv⟩ := says_text e un hg
    exact ⟨_, ⟨vs, ho, rfl⟩, hv⟩

/-- **C112** (text with dimensions). -/
theorem c112_text_dims [FloatText F] (e : Embeddings T V S F) (un : Bool) :
    WritesAs 0 (EWrite.textDims e un) (e.writeTextDims un) fun ps => ∃ p vs,
      OutPieces.ShapeLine (Vocab.wordsLen e.vocab) (Storage.shape e.storage).2 p ∧ Outputs e un vs ∧
      ps = p :: ((Vocab.words e.vocab).zip vs).map OutPieces.line :=
  .of ((erases_shapeLine e).seq0 (erases_text e un)) fun hg => by
    obtain ⟨vs, ho, hv⟩ := says_text e un (W.good_seq_iff.mp hg).2
    obtain ⟨p, hp, hs⟩ := says_shapeLine e
    exact ⟨_, ⟨p, vs, hp, ho, rfl⟩, hs.seq0 hv⟩

end

/-- **C112** (floret). `n` buckets, `k` hashes, the n-gram lengths `m` and `M`: the first line, then a line for each bucket. -/
theorem c112_floret {T F : Type} [Scalar F] [FloatText F] (e : Embeddings T FloretSubwordVocab (NdArray F) F) (n k : Nat) (seed : UInt32)
    (ix : FloretIndexer) (hix : FloretIndexer.new n k seed = .ok ix) (ws : List Str) (m M : Nat) (bow eow : Str)
    (hv : SubwordVocab.newWithBoundaries ws m M ix bow eow = .ok e.vocab) :
    WritesAs 0 (EWrite.floretText e) e.writeFloret fun ps => ∃ hs lines : List Str, hs.length = 6 ∧
      (∀ (i : Nat) (h : Str) (x : Nat), hs[i]? = some h → [n, e.storage.inner.cols, m, M, k, seed.toNat][i]? = some x → Shown h x) ∧
      lines.length = e.storage.inner.rows.length - ws.length ∧ (∀ (i : Nat) (l : Str), lines[i]? = some l → Shown l i) ∧
      ps = OutPieces.field "Cannot write floret embeddings metadata"
          ((hs.flatMap fun h => utf8 h ++ [32]) ++ utf8 bow ++ [32] ++ utf8 eow ++ [10]).length ::
        (lines.zip (e.storage.inner.rows.drop ws.length)).map fun p =>
          OutPieces.field "Cannot write embedding" (textLine p.1 p.2).length := by
  refine .of ?_ fun hg => ?_
  · unfold EWrite.floretText Embeddings.writeFloret
    refine Erases.seq0 (Erases.seq0 (Erases.ofRes _ fun _ => Erases.emit _ _) ?_) (Erases.each (fun _ => Erases.emit _ _) _)
    generalize decide (Vocab.wordsLen e.vocab ≤ e.storage.inner.nrows) = b
    cases b
    · exact Erases.done' rfl
    · exact Erases.nil
  · obtain ⟨hnd, _, hve⟩ := SubwordVocab.newWithBoundaries_eq_ok.mp hv
    have hlen : (indexMap ws).len = ws.length := (indexMap_len_iff ws).mpr hnd
    have hwl : Vocab.wordsLen e.vocab = ws.length := by rw [hve]; exact hlen
    have hle := (c75_floret e n k seed ix hix ws m M bow eow hv).1.mp hg
    obtain ⟨_, _, rfl⟩ := FloretIndexer.new_eq_ok.mp hix
    have hvl : Vocab.vocabLen e.vocab = .ok (ws.length + n) := by
      rw [hve]; show Res.ok ((indexMap ws).len + n) = _; rw [hlen]
    refine ⟨_, ⟨[n, e.storage.inner.cols, m, M, k, seed.toNat].map printNat,
      (List.range (e.storage.inner.rows.length - ws.length)).map printNat, rfl, ?_, by simp, ?_, rfl⟩, ?_⟩
    · intro i h x hh hx
      rw [List.getElem?_map, hx] at hh
      cases hh
      exact printNat_shown x
    · intro i l hl
      rw [List.getElem?_map] at hl
      by_cases hi : i < e.storage.inner.rows.length - ws.length
      · rw [List.getElem?_range hi] at hl
        cases hl
        exact printNat_shown i
      · rw [List.getElem?_eq_none (by simp; omega)] at hl
        cases hl
    · unfold EWrite.floretText
      rw [hwl]
      have hb : decide (ws.length ≤ e.storage.inner.nrows) = true := decide_eq_true hle
      rw [hb]
      apply Says.cast
      · apply Says.seq0
        · exact Says.seq0 (Says.ofRes hvl (Says.emit _ _)) Says.nil
        · exact Says.each fun p _ => Says.emit _ _
      · rw [Nat.add_sub_cancel_left, List.append_nil, List.singleton_append]
        congr 1
        · show OutPieces.field _ _ = _
          congr 2
          rw [hve]
          simp only [List.map_cons, List.map_nil, List.flatMap_cons, List.flatMap_nil, List.append_assoc, List.cons_append,
            List.nil_append, List.append_nil]
          rfl
        · rw [List.map_eq_flatMap, List.zipIdx_eq_zip_range', List.length_drop, List.range_eq_range']
          generalize e.storage.inner.rows.length - ws.length = c
          generalize e.storage.inner.rows.drop ws.length = rows
          generalize List.range' 0 c = is
          simp only [textLine_eq]
          induction rows generalizing is with
          | nil => simp
          | cons r rows ih =>
            cases is with
            | nil => rfl
            | cons i is =>
              simp only [List.zip_cons_cons, List.flatMap_cons, List.map_cons, ih]
              rfl

/-! ### fastText -/

section
variable {T S F : Type} [Scalar F] [ScalarNat F] [Storage S F]

omit [ScalarNat F] [Storage S F] in
theorem foldl_sub_length (d : Nat) (rows : List (List F)) (h : ∀ r ∈ rows, r.length = d) (z : List F) (hz : z.length = d) :
    (rows.foldl (List.zipWith Scalar.sub) z).length = d := by
  induction rows generalizing z with
  | nil => exact hz
  | cons r rows ih =>
    refine ih (fun r hr => h r (by simp [hr])) _ ?_
    simp [hz, h r (by simp)]

theorem ftWordRow_length (e : Embeddings T FastTextSubwordVocab S F) (hr : RowsSized e.storage) {w : Str} {v u : List F} {n : F}
    (hv : v.length = (Storage.shape e.storage).2) (h : e.ftWordRow w v n = .ok u) : u.length = (Storage.shape e.storage).2 := by
  unfold Embeddings.ftWordRow at h
  obtain ⟨o, ho, h⟩ := Res.bind_eq_ok.mp h
  cases o with
  | none => cases h; simpa [scale] using hv
  | some is =>
    obtain ⟨subs, hs, h⟩ := Res.bind_eq_ok.mp h
    cases h
    refine foldl_sub_length _ subs (fun r hrm => ?_) _ (by simpa [scale] using hv)
    have : Res.ok r ∈ is.map (Storage.embedding e.storage) := by
      rw [Res.mapM_eq_ok_iff.mp hs]; exact List.mem_map_of_mem hrm
    obtain ⟨j, _, hj⟩ := List.mem_map.mp this
    exact hr j r hj

theorem erases_ftWord (w : Str) : Erases 0 (EWrite.ftWord w) (Embeddings.writeFtWord w) := by
  unfold EWrite.ftWord Embeddings.writeFtWord
  erases

theorem erases_ftConfig (c : FtConfig) : Erases 0 (EWrite.ftConfig c) (writeFtConfig c) := by
  unfold EWrite.ftConfig writeFtConfig
  erases

theorem erases_ftVocab (v : FastTextSubwordVocab) : Erases 0 (EWrite.ftVocab v) (Embeddings.writeFtVocab v) := by
  unfold EWrite.ftVocab Embeddings.writeFtVocab
  by_cases h : Vocab.wordsLen v < 2 ^ 32
  · rw [if_pos h, if_pos h]
    refine Erases.seq0 ?_ (Erases.each erases_ftWord _)
    erases
  · rw [if_neg h, if_neg h]
    exact Erases.done' rfl

theorem erases_ftEmbeddings [FloatBits F] (e : Embeddings T FastTextSubwordVocab S F) :
    Erases 0 (EWrite.ftEmbeddings e) e.writeFtEmbeddings := by
  unfold EWrite.ftEmbeddings Embeddings.writeFtEmbeddings
  refine Erases.seq0 (Erases.seq0 ?_ (Erases.each (fun p => Erases.ofRes _ fun u => Erases.each (fun x => Erases.f32 _ _) _) _))
    (Erases.ofRes _ fun n => Erases.each (fun i => Erases.ofRes _ fun u => Erases.each (fun x => Erases.f32 _ _) _) _)
  erases

/-- **C112** (fastText, part). Missing: two fields have the texts of other fields, one of them with a read error (`c112_false`). -/
theorem c112_fasttext_partial [FloatBits F] (e : Embeddings T FastTextSubwordVocab S F) (hr : RowsSized e.storage) :
    WritesAs 0 (EWrite.fastText e) e.writeFastText
      (· = OutPieces.fastText e.vocab.words (Storage.shape e.storage).2 e.vocab.indexer.buckets.toNat) := by
  refine .of ?_ fun hg => ?_
  · unfold EWrite.fastText Embeddings.writeFastText
    refine Erases.ofRes _ fun c => ?_
    refine Erases.seq0 (Erases.seq0 (Erases.seq0 (Erases.seq0 ?_ (erases_ftConfig c)) (erases_ftVocab _)) (Erases.emit _ _))
      (erases_ftEmbeddings e)
    erases
  · refine ⟨_, rfl, ?_⟩
    unfold Embeddings.writeFastText at hg
    obtain ⟨c, hc, hg⟩ := W.good_ofRes_iff.mp hg
    obtain ⟨hg, hge⟩ := W.good_seq_iff.mp hg
    obtain ⟨hg, _⟩ := W.good_seq_iff.mp hg
    obtain ⟨_, hgv⟩ := W.good_seq_iff.mp hg
    have hw : Vocab.wordsLen e.vocab < 2 ^ 32 := by
      unfold Embeddings.writeFtVocab at hgv
      by_cases h : Vocab.wordsLen e.vocab < 2 ^ 32
      · exact h
      · rw [if_neg h] at hgv; cases hgv
    unfold Embeddings.writeFtEmbeddings at hge
    obtain ⟨hge, hgb⟩ := W.good_seq_iff.mp hge
    have hgw := W.good_each_iff.mp (W.good_seq_iff.mp hge).2
    have hvl : Vocab.vocabLen e.vocab = .ok (Vocab.wordsLen e.vocab + e.vocab.indexer.buckets.toNat) := rfl
    rw [hvl] at hgb
    have hgb := W.good_each_iff.mp hgb
    have hwords : Says 0 (EW.each (fun p => EW.ofRes (do
          let v ← Storage.embedding e.storage p.2
          let n ← e.normAt p.2
          e.ftWordRow p.1 v n) fun u => EW.each (fun x => EW.f32 "Cannot write embedding" (FloatBits.toBits x)) u)
        e.vocab.words.zipIdx) [OutPieces.field "Cannot write embedding" (4 * (e.vocab.words.length * (Storage.shape e.storage).2))] := by
      refine (Says.eachSame (e := .write "Cannot write embedding") (k := fun _ => 4 * (Storage.shape e.storage).2) fun p hp => ?_).cast ?_
      · obtain ⟨u, hu, _⟩ := W.good_ofRes_iff.mp (hgw p hp)
        refine Says.ofRes hu ((Says.bits _ _).cast ?_)
        obtain ⟨v, hv, hu⟩ := Res.bind_eq_ok.mp hu
        obtain ⟨n, _, hu⟩ := Res.bind_eq_ok.mp hu
        rw [ftWordRow_length e hr (hr _ _ hv) hu]
      · rw [Says.sum_const]
        rw [List.length_zipIdx, Nat.mul_assoc, Nat.mul_comm (Storage.shape e.storage).2]
        rfl
    have hbuckets : Says 0 (EW.each (fun i => EW.ofRes (Storage.embedding e.storage i) fun u =>
          EW.each (fun x => EW.f32 "Cannot write subword embedding" (FloatBits.toBits x)) u)
        (List.range' (Vocab.wordsLen e.vocab)
          (Vocab.wordsLen e.vocab + e.vocab.indexer.buckets.toNat - Vocab.wordsLen e.vocab)))
        [OutPieces.field "Cannot write subword embedding" (4 * (e.vocab.indexer.buckets.toNat * (Storage.shape e.storage).2))] := by
      refine (Says.eachSame (e := .write "Cannot write subword embedding") (k := fun _ => 4 * (Storage.shape e.storage).2) fun i hi => ?_).cast ?_
      · obtain ⟨u, hu, _⟩ := W.good_ofRes_iff.mp (hgb i hi)
        exact Says.ofRes hu ((Says.bits _ _).cast (by rw [hr _ _ hu]))
      · rw [Says.sum_const]
        rw [List.length_range', Nat.add_sub_cancel_left, Nat.mul_assoc, Nat.mul_comm (Storage.shape e.storage).2]
        rfl
    have hword : ∀ w, Says 0 (EWrite.ftWord w) [OutPieces.field "Cannot write word" (utf8 w).length,
        OutPieces.field "Cannot write word terminator" 1, OutPieces.field "Cannot write word frequency" 8,
        .field (.read "Cannot read entry type") 1] := by
      intro w
      unfold EWrite.ftWord
      apply Says.cast
      · says
      · rfl
    unfold EWrite.fastText
    refine Says.ofRes hc ?_
    unfold EWrite.ftConfig EWrite.ftVocab EWrite.ftEmbeddings
    rw [if_pos hw, hvl]
    apply Says.cast
    · apply Says.seq0
      · apply Says.seq0
        · apply Says.seq0
          · says
          · apply Says.seq0 (hb := Says.each fun w _ => hword w)
            says
        · says
      · apply Says.seq0
        · apply Says.seq0 (hb := hwords)
          says
        · exact hbuckets
    · simp [OutPieces.fastText, OutPieces.field]

end

/-! ## The chunks and files of finalfusion -/

/-- **C112** (header). -/
theorem c112_header (h : Header) : WritesAs 0 (EWrite.header h) h.write (· = OutPieces.header h.ids.length) :=
  .of' (erases_header h) (says_header h)

/-- **C112** (metadata). -/
theorem c112_metadata {T : Type} [Toml T] (m : Metadata T) (off : Nat) :
    WritesAs 0 (EWrite.metadata m) (writeChunk m off) (· = OutPieces.metadata (Toml.print m.inner)) :=
  .of' (erases_metadata m) (says_metadata m)

/-- **C112** (vocabularies). -/
theorem c112_vocab (v : VocabWrap) (off : Nat) :
    WritesAs (OutPieces.positions v) (EWrite.vocab v) (writeChunk v off) (· = OutPieces.vocab v) :=
  .of (erases_vocab v off) fun hg => ⟨_, rfl, says_vocab v off hg⟩

/-- **C112** (storages, part). Missing: with fewer answers about the position, see `c112_position`. -/
theorem c112_storage_partial (s : StorageWrap) (off : Nat) :
    WritesAs 2 (EWrite.storage s off) (writeChunk s off) fun ps => OutPieces.Storage off ps s :=
  .of (erases_storage s off) (says_storage s off)

/-- **C112** (storages with views, part). -/
theorem c112_view_partial (s : StorageViewWrap) (off : Nat) :
    WritesAs 2 (EWrite.storageView s off) (writeChunk s off) fun ps => OutPieces.View off ps s :=
  .of (erases_view s off) (says_view s off)

/-- **C112** (norms, part). -/
theorem c112_norms_partial (ns : NdNorms F32) (off : Nat) :
    WritesAs 2 (EWrite.norms ns.inner off) (writeChunk ns off) (· = OutPieces.norms off ns.inner) :=
  .of' (erases_norms ns.inner off) (says_norms ns.inner off)

/-- **C112** (files, part). -/
theorem c112_file_partial {T : Type} [Toml T] (e : Embeddings T VocabWrap StorageWrap F32) (off : Nat) :
    WritesAs (OutPieces.positions e.vocab + 4) (EWrite.embeddings (fun v _ => EWrite.vocab v) EWrite.storage e off) (e.write off)
      (OutPieces.File (fun p ps => OutPieces.Storage p ps e.storage) off e (OutPieces.vocab e.vocab)) :=
  .of (erases_embeddings e (erases_vocab e.vocab) erases_storage off) fun hg =>
    says_embeddings e (erases_vocab e.vocab) (says_vocab e.vocab) (says_storage e.storage) off hg

/-- **C112** (files with a view, part). -/
theorem c112_view_file_partial {T : Type} [Toml T] (e : Embeddings T VocabWrap StorageViewWrap F32) (off : Nat) :
    WritesAs (OutPieces.positions e.vocab + 4) (EWrite.embeddings (fun v _ => EWrite.vocab v) EWrite.storageView e off) (e.write off)
      (OutPieces.File (fun p ps => OutPieces.View p ps e.storage) off e (OutPieces.vocab e.vocab)) :=
  .of (erases_embeddings e (erases_vocab e.vocab) erases_view off) fun hg =>
    says_embeddings e (erases_vocab e.vocab) (says_vocab e.vocab) (says_view e.storage) off hg

/-! ## The position of the sink -/

theorem EW.steps_prefix (a b : EW) : a.steps <+: (a ++ b).steps := by
  show a.steps <+: (EW.seq a b).steps
  unfold EW.seq
  match a.status with
  | .ok () => exact List.prefix_append _ _
  | .err _ => exact List.prefix_rfl
  | .panic => exact List.prefix_rfl

theorem EW.run_of_tells {w : EW} {b : Bytes} {e e0 e1 : Error} {rest : List Step}
    (h : w.steps = .put b e :: .tell e0 :: .tell e1 :: rest) {cap tells : Nat} (hc : b.length ≤ cap) (ht : tells < 2) :
    w.run cap tells = (b, .err (if tells = 0 then e0 else e1)) := by
  match tells, ht with
  | 0, _ => simp [EW.run, h, EW.accepted, EW.fails, hc]
  | 1, _ => simp [EW.run, h, EW.accepted, EW.fails, hc]

/-- The description of both failures to get the position. -/
def positionText : String := "Cannot get file position for computing padding"

/-- **C112** (simple vocabularies). The position is asked for once after the identifier. If the call fails, it is a read error. -/
theorem c112_position_simple (v : SimpleVocab) (cap : Nat) (hc : 4 ≤ cap) :
    (EWrite.simple v).run cap 0 = (le32 1, .err (.read positionText)) := by
  obtain ⟨rest, h⟩ : [Step.put (le32 1) (.write "Cannot write vocabulary chunk identifier"), .tell (.read positionText)] <+:
      (EWrite.simple v).steps := by
    unfold EWrite.simple
    repeat' first
      | exact List.prefix_rfl
      | refine List.IsPrefix.trans ?_ (EW.steps_prefix _ _)
  have hl : (le32 1).length ≤ cap := hc
  rw [EW.run, ← h]
  simp only [List.cons_append, EW.accepted, EW.fails, if_pos hl, List.append_nil]

/-- **C112** (matrices). The position is asked for twice after the identifier. If the first call fails, it is a write error; if the
second does, it is a read error. -/
theorem c112_position_array (m : Mat F32) (off cap tells : Nat) (hc : 4 ≤ cap) (ht : tells < 2) :
    (EWrite.ndArray m off).run cap tells = (le32 2, .err (if tells = 0 then .write positionText else .read positionText)) := by
  obtain ⟨rest, h⟩ : [Step.put (le32 2) (.write "Cannot write embedding matrix chunk identifier"), .tell (.write positionText),
      .tell (.read positionText)] <+: (EWrite.ndArray m off).steps := by
    unfold EWrite.ndArray
    repeat' first
      | exact List.prefix_rfl
      | refine List.IsPrefix.trans ?_ (EW.steps_prefix _ _)
  exact EW.run_of_tells h.symm hc ht

/-- **C112** (quantized matrices). Here the first failure is a read error, and the second is a write error. -/
theorem c112_position_quantized (q : Pq F32) (codes : Mat UInt8) (norms : Option (List F32)) (off cap tells : Nat) (hc : 4 ≤ cap)
    (ht : tells < 2) : (EWrite.quantized q codes norms off).run cap tells =
      (le32 4, .err (if tells = 0 then .read positionText else .write positionText)) := by
  obtain ⟨rest, h⟩ : [Step.put (le32 4) (.write "Cannot write quantized embedding matrix chunk identifier"),
      .tell (.read positionText), .tell (.write positionText)] <+: (EWrite.quantized q codes norms off).steps := by
    unfold EWrite.quantized
    repeat' first
      | exact List.prefix_rfl
      | refine List.IsPrefix.trans ?_ (EW.steps_prefix _ _)
  exact EW.run_of_tells h.symm hc ht

/-- **C112** (norms). As for matrices. -/
theorem c112_position_norms (ns : List F32) (off cap tells : Nat) (hc : 4 ≤ cap) (ht : tells < 2) :
    (EWrite.norms ns off).run cap tells = (le32 6, .err (if tells = 0 then .write positionText else .read positionText)) := by
  obtain ⟨rest, h⟩ : [Step.put (le32 6) (.write "Cannot write norms chunk identifier"), .tell (.write positionText),
      .tell (.read positionText)] <+: (EWrite.norms ns off).steps := by
    unfold EWrite.norms
    repeat' first
      | exact List.prefix_rfl
      | refine List.IsPrefix.trans ?_ (EW.steps_prefix _ _)
  exact EW.run_of_tells h.symm hc ht

/-! ## What is false -/

section
attribute [local instance] exampleScalar exampleFloatText exampleScalarNat exampleToml

/-- Whether a writer succeeds by itself can be decided. -/
local instance (w : W) : Decidable w.Good := inferInstanceAs (Decidable (w.status = .ok ()))

/-- **C112** (false as stated). The failure to write the type of a word in a fastText file is a read error. The type of the model has
the description of the loss. And the failure to get a position is a read error at times. -/
theorem c112_false :
    (∃ e : Embeddings Str FastTextSubwordVocab (NdArray F32) F32, e.writeFastText.Good ∧ RowsSized e.storage ∧
      ((EWrite.fastText e).run 102 0).2 = .err (.read "Cannot read entry type") ∧
      ((EWrite.fastText e).run 32 0).2 = .err (.write "Cannot write loss function") ∧
      ((EWrite.fastText e).run 36 0).2 = .err (.write "Cannot write loss function")) ∧
    (∃ s : StorageWrap, ∀ cap, 4 ≤ cap → (EWrite.storage s 0).run cap 1 = (le32 2, .err (.read positionText))) := by
  refine ⟨⟨exampleFtWritten, by decide +kernel, ?_, by decide +kernel, by decide +kernel, by decide +kernel⟩,
    ⟨.ndArray ⟨⟨1, [[1]]⟩⟩, fun cap hc => c112_position_array ⟨1, [[1]]⟩ 0 cap 1 hc (by decide)⟩⟩
  intro i v h
  have : exampleFtWritten.storage.inner.rows[i]? = some v := Res.unwrap_eq_ok.mp h
  have hm := List.mem_of_getElem? this
  simp only [exampleFtWritten, List.mem_cons, List.not_mem_nil, or_false] at hm
  rcases hm with rfl | rfl <;> rfl

/-! ## Examples -/

/-- Embeddings with metadata, words, a matrix and norms are written; the sink fails in the header, in the metadata, in a string, in
the padding of the matrix and in the norms. -/
example : (exampleEmbeddings.write 0).Good ∧
    [5, 30, 46, 69, 107, 130, 160].map (fun cap =>
        ((EWrite.embeddings (fun v _ => EWrite.vocab v) EWrite.storage exampleEmbeddings 0).run cap 5).2) =
      [.err (.write "Cannot write model version"), .err (.write "Cannot write metadata chunk identifier"),
       .err (.write "Cannot write vocabulary chunk identifier"), .err (.write "Cannot write string length"),
       .err (.write "Cannot write padding"), .err (.write "Cannot write norms chunk length"), .ok ()] := by
  decide +kernel

/-- Vocabularies of other kinds, and a quantized matrix that does not start at a multiple of 4. -/
example : (writeChunk (VocabWrap.floret exampleFloret.vocab) 0).Good ∧
    ((EWrite.vocab (.floret exampleFloret.vocab)).run 44 0).2 =
      .err (.context "Cannot write end of word marker" (.write "Cannot write string length")) ∧
    (writeChunk (StorageWrap.quantized exampleQuantized) 3).Good ∧
    ((EWrite.storage (.quantized exampleQuantized) 3).run 48 2).2 = .err (.write "Cannot write padding") ∧
    ((EWrite.storage (.quantized exampleQuantized) 3).run 49 2).2 = .err (.write "Cannot write projection matrix component") := by
  decide +kernel

/-- Embeddings for the formats other than finalfusion. -/
example : ∃ e : Embeddings Str SimpleVocab (NdArray F32) F32, (e.writeWord2vec false).Good ∧ (e.writeTextDims false).Good ∧
    ((EWrite.word2vec e false).run 3 0).2 = .err (.write "Cannot write word embedding matrix shape") ∧
    ((EWrite.word2vec e false).run 5 0).2 = .err (.write "Cannot write token") ∧
    ((EWrite.word2vec e false).run 13 0).2 = .err (.write "Cannot write embedding component") ∧
    ((EWrite.word2vec e false).run 14 0).2 = .err (.write "Cannot write embedding separator") ∧
    ((EWrite.textDims e false).run 9 0).2 = .err (.write "Cannot write word embedding") ∧
    ((EWrite.text e false).run 6 0) = (ascii "a 1 2\n", .err (.write "Cannot write word embedding")) :=
  ⟨⟨none, ⟨⟨2, [[1, 2], [3, 4]]⟩⟩, ⟨indexMap [['a'], ['b', 'c']], [['a'], ['b', 'c']]⟩, none⟩, by decide +kernel⟩

/-- Floret embeddings are written (the hypotheses of `c112_floret` are those of `c75_floret`). -/
example : exampleFloret.writeFloret.Good ∧
    ((EWrite.floretText exampleFloret).run 16 0).2 = .err (.write "Cannot write floret embeddings metadata") ∧
    ((EWrite.floretText exampleFloret).run 18 0).2 = .err (.write "Cannot write embedding") := by
  decide +kernel

end

end FF
