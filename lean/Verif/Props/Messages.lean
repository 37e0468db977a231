import Verif.Lemmas.Messages
import Verif.Props.Accepted

/-!
# C108: what the readers say when the data ends too early
-/

namespace FF

open ERd Piece

/-! ## Specification: the pieces of every chunk -/

namespace Pieces

/-- A field with its description. -/
def field (desc : String) (len : Nat) : Piece := .field (.read desc) len

/-- A string with its length. -/
def string (s : Str) : List Piece := [field "Cannot read string length" 4, field "Cannot read item" (utf8 s).length]

/-- An n-gram with its length and its index. -/
def ngram (s : Str) : List Piece :=
  [field "Cannot read item length" 4, field "Cannot read item" (utf8 s).length, field "Cannot read ngram index." 8]

/-- The header, with `n` identifiers. -/
def header (n : Nat) : List Piece :=
  [field "Cannot read magic" 4, field "Cannot read model version" 4, field "Cannot read chunk identifiers length" 4] ++
  List.replicate n (field "Cannot read chunk identifier" 4)

/-- Metadata of `n` bytes. -/
def metadata (n : Nat) : List Piece :=
  [field "Cannot read chunk identifier" 4, field "Cannot read chunk length" 8, field "Cannot read TOML metadata" n]

/-- A vocabulary of words. `desc` describes its identifier. -/
def simple (desc : String) (v : SimpleVocab) : List Piece :=
  [field desc 4, field "Cannot read vocabulary chunk length" 8, field "Cannot read vocabulary length" 8] ++
  v.words.flatMap string

/-- A vocabulary with buckets. -/
def bucketed {I : Type} (desc : String) (v : SubwordVocab I) : List Piece :=
  [field desc 4, field "Cannot read vocabulary chunk length" 8, field "Cannot read vocabulary length" 8,
   field "Cannot read minimum n-gram length" 4, field "Cannot read maximum n-gram length" 4,
   field "Cannot read number of buckets" 4] ++
  v.words.flatMap string

/-- A vocabulary with explicit n-grams. -/
def explicit (desc : String) (v : ExplicitSubwordVocab) : List Piece :=
  [field desc 4, field "Cannot read vocabulary chunk length" 8, field "Cannot read number of words" 8,
   field "Cannot read number of ngrams" 8, field "Cannot read minimum n-gram length" 4,
   field "Cannot read maximum n-gram length" 4] ++
  v.words.flatMap string ++ v.indexer.ngrams.flatMap ngram

/-- A string that is described by its role. -/
def marker (role : String) (s : Str) : List Piece :=
  [.field (.context role (.read "Cannot read string length")) 4,
   .field (.context role (.read "Cannot read item")) (utf8 s).length]

/-- A floret vocabulary. -/
def floret (desc : String) (v : FloretSubwordVocab) : List Piece :=
  [field desc 4, field "Cannot read vocabulary chunk length" 8, field "Cannot read minimum n-gram length" 4,
   field "Cannot read maximum n-gram length" 4, field "Cannot read number of buckets" 8,
   field "Cannot read number of hashes" 4, field "Cannot read hasher seed" 4] ++
  marker "Cannot read begin of word marker" v.bow ++ marker "Cannot read end of word marker" v.eow

/-- A vocabulary of any kind. -/
def vocab (desc : String) : VocabWrap → List Piece
  | .simple v => simple desc v
  | .bucket v => bucketed desc v
  | .fastText v => bucketed desc v
  | .explicit v => explicit desc v
  | .floret v => floret desc v

/-- Bytes to skip at position `p`: up to the next multiple of 4, and four if `p` is one itself. -/
def align (p : Nat) : Piece := .skipped (4 - p % 4)

/-- A matrix that starts at `pos`. -/
def ndArray (desc : String) (pos : Nat) (a : NdArray F32) : List Piece :=
  [field desc 4, field "Cannot read embedding matrix chunk length" 8,
   field "Cannot read number of rows of the embedding matrix" 8,
   field "Cannot read number of columns of the embedding matrix" 4, field "Cannot read type identifier" 4,
   align (pos + 28), field "Cannot read embedding matrix" (4 * (a.inner.rows.length * a.inner.cols))]

/-- A quantized matrix that starts at `pos`. The number of centroids is called number of subquantizers. -/
def quantized (desc : String) (pos : Nat) (a : QuantizedArray F32) : List Piece :=
  [field desc 4, field "Cannot read quantized embedding matrix chunk length" 8,
   field "Cannot read quantized embedding matrix projection" 4, field "Cannot read quantized embedding matrix norms" 4,
   field "Cannot read quantized embedding length" 4, field "Cannot read reconstructed embedding length" 4,
   field "Cannot read number of subquantizers" 4, field "Cannot read number of quantized embeddings" 8,
   field "Cannot read type identifier" 4, field "Cannot read type identifier" 4, align (pos + 48)] ++
  (a.quantizer.projection.toList.map fun p => field "Cannot read projection matrix" (4 * (p.rows.length * p.cols))) ++
  [field "Cannot read subquantizer" (4 * (a.quantizer.quantizers.length * (a.quantizer.nCentroids * a.quantizer.subDim)))] ++
  (a.norms.toList.map fun ns => field "Cannot read norms" (4 * ns.length)) ++
  [field "Cannot read quantized embeddings" (a.codes.rows.length * a.codes.cols)]

/-- Norms that start at `pos`. -/
def norms (pos : Nat) (n : NdNorms F32) : List Piece :=
  [field "Cannot read chunk identifier" 4, field "Cannot read norms chunk length" 8,
   field "Cannot read norms vector length" 8, field "Cannot read type identifier" 4, align (pos + 24),
   field "Cannot read norms" (4 * n.inner.length)]

/-- A storage of any kind that is read into memory. -/
def storage (desc : String) (pos : Nat) : StorageWrap → List Piece
  | .ndArray a => ndArray desc pos a
  | .quantized a => quantized desc pos a
  | _ => []

end Pieces

open Pieces

/-! ## The kinds of the errors -/

theorem kindOf_header : KindOf readHeader Header.read :=
  (KindOf.exact _ _).bind fun _ => .ite (.fail rfl) <| (KindOf.u32 _).bind fun _ => .ite (.fail rfl) <|
  (KindOf.u32 _).bind fun n => (KindOf.alloc _ _).bind fun _ => ((KindOf.chunkId _).replicateM n).bind fun _ => .pure _

section
variable [ErrorText]

theorem kindOf_string : KindOf ERd.readString FF.readString :=
  (KindOf.u32 _).bind fun _ => (KindOf.alloc _ _).bind fun _ => (KindOf.exact _ _).bind fun _ => .option rfl _

theorem kindOf_items (n : Nat) : KindOf (ERd.readVocabItems n) (FF.readVocabItems n) :=
  (KindOf.alloc _ _).bind fun _ => kindOf_string.replicateM n

theorem kindOf_simple : KindOf readSimple SimpleVocab.read :=
  (KindOf.ensureChunkType _).bind fun _ => (KindOf.u64 _).bind fun _ => (KindOf.u64 _).bind fun n =>
  (kindOf_items n).bind fun _ => .lift (noErr_simple _)

theorem kindOf_bucketed {I : Type} [BucketIndexer I] (h : ∀ ix : I, Res.NoErr (Indexer.upperBound ix))
    (hn : ∀ n, Res.NoErr (BucketIndexer.newBuckets n : Res I)) (id : ChunkId) :
    KindOf (ERd.readBucketed id : ERd (SubwordVocab I)) (FF.readBucketed id) :=
  (KindOf.ensureChunkType _).bind fun _ => (KindOf.u64 _).bind fun _ => (KindOf.u64 _).bind fun n =>
  (KindOf.u32 _).bind fun _ => (KindOf.u32 _).bind fun _ => (KindOf.u32 _).bind fun _ =>
  (kindOf_items n).bind fun _ => (KindOf.lift (hn _)).bind fun _ => .lift (noErr_newWithBoundaries h _ _ _ _ _ _)

theorem kindOf_ngrams (n : Nat) : KindOf (ERd.readNgrams n) (FF.readNgrams n) :=
  (KindOf.alloc _ _).bind fun _ => KindOf.replicateM ((KindOf.u32 _).bind fun _ => (KindOf.alloc _ _).bind fun _ =>
    (KindOf.exact _ _).bind fun _ => (KindOf.option rfl _).bind fun _ => (KindOf.u64 _).bind fun _ => .pure _) n

theorem kindOf_explicit : KindOf ERd.readExplicit FF.readExplicit :=
  (KindOf.ensureChunkType _).bind fun _ => (KindOf.u64 _).bind fun _ => (KindOf.u64 _).bind fun n =>
  (KindOf.u64 _).bind fun k => (KindOf.u32 _).bind fun _ => (KindOf.u32 _).bind fun _ =>
  (kindOf_items n).bind fun _ => (kindOf_ngrams k).bind fun _ =>
  (KindOf.lift (by rw [newWithIndices_eq]; split; exact Res.noErr_ok _; exact Res.noErr_panic)).bind fun _ =>
  .lift (noErr_newWithBoundaries (fun _ => Res.noErr_ok _) _ _ _ _ _ _)

theorem kindOf_floret : KindOf ERd.readFloret FF.readFloret :=
  (KindOf.ensureChunkType _).bind fun _ => (KindOf.u64 _).bind fun _ => (KindOf.u32 _).bind fun _ =>
  (KindOf.u32 _).bind fun _ => (KindOf.u64 _).bind fun _ => (KindOf.u32 _).bind fun _ => .ite (.fail rfl) <|
  (KindOf.u32 _).bind fun _ => kindOf_string.inContext.bind fun _ => kindOf_string.inContext.bind fun _ =>
  (KindOf.lift (noErr_floretNew _ _ _)).bind fun _ => .lift (noErr_newWithBoundaries (fun _ => Res.noErr_ok _) _ _ _ _ _ _)

theorem kindOf_bucket : KindOf (ERd.readBucketed .bucketSubwordVocab) (readChunk : Rd BucketSubwordVocab) :=
  kindOf_bucketed noErr_hashBound noErr_hashNew _

theorem kindOf_fastText : KindOf (ERd.readBucketed .fastTextSubwordVocab) (readChunk : Rd FastTextSubwordVocab) :=
  kindOf_bucketed (fun _ => Res.noErr_ok _) noErr_fastTextNew _

theorem kindOf_vocab : KindOf ERd.readVocabWrap FF.readVocabWrap := by
  refine (KindOf.peek _).bind fun i => ?_
  cases i
  case simpleVocab => exact kindOf_simple.bind fun _ => .pure _
  case fastTextSubwordVocab => exact kindOf_fastText.bind fun _ => .pure _
  case bucketSubwordVocab => exact kindOf_bucket.bind fun _ => .pure _
  case explicitSubwordVocab => exact kindOf_explicit.bind fun _ => .pure _
  case floretSubwordVocab => exact kindOf_floret.bind fun _ => .pure _
  all_goals exact .fail rfl

theorem kindOf_metadata {T : Type} [Toml T] : KindOf ERd.readMetadata (FF.readMetadata : Rd (Metadata T)) :=
  (KindOf.ensureChunkType _).bind fun _ => (KindOf.u64 _).bind fun _ => (KindOf.alloc _ _).bind fun _ =>
  (KindOf.exact _ _).bind fun _ => (KindOf.option rfl _).bind fun _ => (KindOf.option rfl _).bind fun _ => .pure _

theorem kindOf_optMetadata {T : Type} [Toml T] :
    KindOf ERd.readOptMetadata (FF.readOptMetadata : Rd (Option (Metadata T))) := by
  refine kindOf_header.bind fun h => ?_
  obtain ⟨ids⟩ := h
  cases ids with
  | nil => exact .fail rfl
  | cons i is => exact .ite (kindOf_metadata.bind fun _ => .pure _) (.pure _)

end

theorem kindOf_arrayHead : KindOf ERd.readNdArrayHead FF.readNdArrayHead :=
  (KindOf.ensureChunkType _).bind fun _ => (KindOf.u64 _).bind fun _ => (KindOf.u64 _).bind fun _ =>
  (KindOf.u32 _).bind fun _ => (KindOf.ensureDataType _).bind fun _ => KindOf.position.bind fun _ =>
  (KindOf.skip _).bind fun _ => .pure _

theorem kindOf_array : KindOf ERd.readNdArray FF.readNdArray :=
  kindOf_arrayHead.bind fun _ => (KindOf.allocArray _ _).bind fun _ => (KindOf.floats _ _).bind fun _ => .pure _

theorem kindOf_mapRegion (desc : String) (n : Nat) : KindOf (reading desc (mapRegion n)) (mapRegion n) :=
  KindOf.named (kinds_mapRegion (List.mem_singleton.mpr rfl) n)

theorem kindOf_mmapArray : KindOf ERd.mmapNdArray FF.mmapNdArray :=
  kindOf_arrayHead.bind fun _ => (KindOf.lift (Res.noErr_assert _)).bind fun _ => (kindOf_mapRegion _ _).bind fun _ =>
  .pure _

theorem kindOf_projection (f n : Nat) : KindOf (ERd.readProjection f n) (FF.readProjection f n) :=
  KindOf.position.bind fun _ => (KindOf.skip _).bind fun _ =>
  .ite ((KindOf.allocArray _ _).bind fun _ => (KindOf.floats _ _).bind fun _ => .pure _) (.pure _)

theorem kindOf_quantizers (n c s : Nat) : KindOf (ERd.readQuantizers n c s) (FF.readQuantizers n c s) :=
  (KindOf.allocArray _ _).bind fun _ => (KindOf.floats _ _).bind fun _ => .pure _

theorem kindOf_pq : KindOf ERd.readPq FF.readPq := by
  refine (KindOf.u32 _).bind fun _ => (KindOf.u32 _).bind fun _ => (KindOf.u32 _).bind fun ql =>
    (KindOf.u32 _).bind fun rl => (KindOf.u32 _).bind fun _ => (KindOf.u64 _).bind fun _ => ?_
  have key : ∀ {m : ERd PqRead} {r : Rd PqRead}, KindOf m r →
      KindOf (checkQuantizerInvariants ql rl >>= fun _ => m)
        (Rd.lift (Res.assert (decide (ql ≠ 0))) >>= fun _ => if rl % ql ≠ 0 then Rd.fail .format else r) := by
    intro m r h d pos
    have hq : checkQuantizerInvariants ql rl d pos = if ql = 0 then .panic else if rl % ql ≠ 0 then
      .err (.format ("Reconstructed embedding length (" ++ number ql ++
      ") not a multiple of the quantized embedding length: (" ++ number rl ++ ")")) else .ok ((), pos) := by
      unfold checkQuantizerInvariants
      rw [ERd.bind_apply]
      by_cases h0 : ql = 0
      · simp [h0, quiet, named, ERes.bind]
      · by_cases h1 : rl % ql = 0 <;> simp [h0, h1, quiet, named, ERes.bind]
    rw [ERd.bind_apply, Rd.bind_apply, hq]
    by_cases h0 : ql = 0
    · simp [h0, ERes.bind, ERes.kinds]
    · by_cases h1 : rl % ql = 0
      · simpa [h0, h1, ERes.bind, ERes.kinds] using h d pos
      · simp [h0, h1, ERes.bind, ERes.kinds, Error.kind]
  exact key ((KindOf.ensureDataType _).bind fun _ => (KindOf.ensureDataType _).bind fun _ =>
    (kindOf_projection _ _).bind fun _ => (kindOf_quantizers _ _ _).bind fun _ =>
    (KindOf.lift (Pq.new_noErr _ _ _ _)).bind fun _ => .pure _)

theorem kindOf_quantizedNorms (b : Bool) (n : Nat) : KindOf (ERd.readQuantizedNorms b n) (FF.readQuantizedNorms b n) :=
  .ite ((KindOf.allocArray _ _).bind fun _ => (KindOf.floats _ _).bind fun _ => .pure _) (.pure _)

theorem kindOf_quantizedHead : KindOf ERd.readQuantizedHead FF.readQuantizedHead :=
  (KindOf.ensureChunkType _).bind fun _ => (KindOf.u64 _).bind fun _ => kindOf_pq.bind fun _ =>
  (kindOf_quantizedNorms _ _).bind fun _ => .pure _

theorem kindOf_quantized : KindOf ERd.readQuantizedArray FF.readQuantizedArray :=
  kindOf_quantizedHead.bind fun _ => (KindOf.allocArray _ _).bind fun _ => (KindOf.exact _ _).bind fun _ => .pure _

theorem kindOf_mmapQuantized : KindOf ERd.mmapQuantizedArray FF.mmapQuantizedArray :=
  kindOf_quantizedHead.bind fun _ => (KindOf.lift (Res.noErr_assert _)).bind fun _ => (kindOf_mapRegion _ _).bind fun _ =>
  .pure _

theorem kindOf_storage : KindOf ERd.readStorageWrap FF.readStorageWrap := by
  refine (KindOf.peek _).bind fun i => ?_
  cases i
  case ndArray => exact kindOf_array.bind fun _ => .pure _
  case quantizedArray => exact kindOf_quantized.bind fun _ => .pure _
  all_goals exact .fail rfl

theorem kindOf_mmapStorage : KindOf ERd.mmapStorageWrap FF.mmapStorageWrap := by
  refine (KindOf.peek _).bind fun i => ?_
  cases i
  case ndArray => exact kindOf_mmapArray.bind fun _ => .pure _
  case quantizedArray => exact kindOf_mmapQuantized.bind fun _ => .pure _
  all_goals exact .fail rfl

theorem kindOf_storageView : KindOf ERd.readStorageViewWrap FF.readStorageViewWrap := by
  refine (KindOf.peek _).bind fun i => ?_
  cases i
  case ndArray => exact kindOf_array.bind fun _ => .pure _
  all_goals exact .fail rfl

theorem kindOf_mmapStorageView : KindOf ERd.mmapStorageViewWrap FF.mmapStorageViewWrap := by
  refine (KindOf.peek _).bind fun i => ?_
  cases i
  case ndArray => exact kindOf_mmapArray.bind fun _ => .pure _
  all_goals exact .fail rfl

theorem kindOf_norms : KindOf ERd.readNorms FF.readNorms :=
  (KindOf.ensureChunkType _).bind fun _ => (KindOf.u64 _).bind fun _ => (KindOf.u64 _).bind fun _ =>
  (KindOf.ensureDataType _).bind fun _ => KindOf.position.bind fun _ => (KindOf.skip _).bind fun _ =>
  (KindOf.allocArray _ _).bind fun _ => (KindOf.floats _ _).bind fun _ => .pure _

/-! ## The pieces that the readers ask for -/

theorem tells_header : readHeader.Tells fun _ h ps => ps = Pieces.header h.ids.length := by
  refine ((Tells.exact _ 4).bind fun m => ((Tells.u32 _).bind fun v => ((Tells.u32 _).bind fun n =>
    Tells.still.bind0 fun _ => (((Tells.chunkId _).imp fun _ a ps h => (⟨trivial, h⟩ : True ∧ ps = _)).replicateM
      (enc := fun _ => _) n).bind fun ids => Tells.pure (⟨ids⟩ : Header)).guard).guard).imp ?_
  rintro pos h ps ⟨m, _, _, rfl, ⟨_, rfl⟩, _, v, _, _, rfl, ⟨_, rfl⟩, _, n, _, _, rfl, ⟨_, rfl⟩, _, _,
    ids, _, _, rfl, ⟨rfl, rfl⟩, rfl, rfl⟩
  have : ∀ l : List ChunkId, l.flatMap (fun _ => [Piece.field (.read "Cannot read chunk identifier") 4]) =
      List.replicate l.length (Pieces.field "Cannot read chunk identifier" 4) := by
    intro l
    induction l with
    | nil => rfl
    | cons a l ih => rw [List.flatMap_cons, ih, List.length_cons, List.replicate_succ]; rfl
  rw [this]
  simp [Pieces.header, Pieces.field]

section
variable [ErrorText]

theorem tells_string : ERd.readString.Tells fun _ s ps => True ∧ ps = Pieces.string s := by
  refine ((Tells.u32 _).bind fun n => Tells.still.bind0 fun _ => (Tells.exact _ n).bind fun b => Tells.still).imp ?_
  rintro pos s ps ⟨n, _, _, rfl, ⟨_, rfl⟩, _, _, b, _, _, rfl, ⟨rfl, rfl⟩, h, rfl⟩
  rw [utf8Decode_iff] at h
  subst h
  exact ⟨trivial, rfl⟩

theorem tells_items (n : Nat) : (ERd.readVocabItems n).Tells fun _ ws ps => ps = ws.flatMap Pieces.string :=
  (Tells.still.bind0 fun _ => tells_string.replicateM n).imp fun _ _ _ ⟨_, _, _, h⟩ => h

omit [ErrorText] in
theorem words_of_new {ws : List Str} {v : SimpleVocab} (h : SimpleVocab.new ws = .ok v) : v.words = ws := by
  unfold SimpleVocab.new at h
  obtain ⟨_, _, h⟩ := Res.bind_eq_ok.mp h
  cases h; rfl

omit [ErrorText] in
theorem parts_of_new {I : Type} [Indexer I] {ws : List Str} {m M : Nat} {ix : I} {bow eow : Str} {v : SubwordVocab I}
    (h : SubwordVocab.newWithBoundaries ws m M ix bow eow = .ok v) :
    v.words = ws ∧ v.indexer = ix ∧ v.bow = bow ∧ v.eow = eow := by
  unfold SubwordVocab.newWithBoundaries at h
  obtain ⟨_, _, h⟩ := Res.bind_eq_ok.mp h
  obtain ⟨_, _, h⟩ := Res.bind_eq_ok.mp h
  obtain ⟨_, _, h⟩ := Res.bind_eq_ok.mp h
  cases h; exact ⟨rfl, rfl, rfl, rfl⟩

theorem tells_simple : readSimple.Tells fun _ v ps => ps = Pieces.simple "Cannot read chunk identifier" v := by
  refine ((Tells.ensureChunkType _).bind fun _ => (Tells.u64 _).bind fun _ => (Tells.u64 _).bind fun n =>
    (tells_items n).bind fun ws => Tells.still).imp ?_
  rintro pos v ps ⟨_, _, _, rfl, rfl, _, _, _, rfl, ⟨_, rfl⟩, n, _, _, rfl, ⟨_, rfl⟩, ws, _, _, rfl, rfl, h, rfl⟩
  rw [← words_of_new h, List.append_nil]
  rfl

theorem tells_bucketed {I : Type} [BucketIndexer I] (id : ChunkId) : (ERd.readBucketed id : ERd (SubwordVocab I)).Tells
    fun _ v ps => ps = Pieces.bucketed "Cannot read chunk identifier" v := by
  refine ((Tells.ensureChunkType _).bind fun _ => (Tells.u64 _).bind fun _ => (Tells.u64 _).bind fun n =>
    (Tells.u32 _).bind fun _ => (Tells.u32 _).bind fun _ => (Tells.u32 _).bind fun _ =>
    (tells_items n).bind fun ws => Tells.still.bind0 fun _ => Tells.still).imp ?_
  rintro pos v ps ⟨_, _, _, rfl, rfl, _, _, _, rfl, ⟨_, rfl⟩, n, _, _, rfl, ⟨_, rfl⟩, _, _, _, rfl, ⟨_, rfl⟩,
    _, _, _, rfl, ⟨_, rfl⟩, _, _, _, rfl, ⟨_, rfl⟩, ws, _, _, rfl, rfl, _, _, h, rfl⟩
  rw [← (parts_of_new h).1, List.append_nil]
  rfl

theorem tells_ngrams (n : Nat) : (ERd.readNgrams n).Tells fun _ gs ps => ps = gs.flatMap fun g => Pieces.ngram g.1 := by
  refine (Tells.still.bind0 fun _ => Tells.replicateM (c := fun _ => True) (enc := fun g => Pieces.ngram g.1)
    (((Tells.u32 _).bind fun n => Tells.still.bind0 fun _ => (Tells.exact _ n).bind fun b => Tells.still.bind0 fun s =>
    (Tells.u64 _).bind fun i => Tells.pure (s, i)).imp ?_) n).imp fun _ _ _ ⟨_, _, _, h⟩ => h
  rintro pos g ps ⟨n, _, _, rfl, ⟨_, rfl⟩, _, _, b, _, _, rfl, ⟨rfl, rfl⟩, s, h, i, _, _, rfl, ⟨_, rfl⟩, rfl, rfl⟩
  rw [utf8Decode_iff] at h
  subst h
  exact ⟨trivial, rfl⟩

theorem tells_explicit : ERd.readExplicit.Tells fun _ v ps => ps = Pieces.explicit "Cannot read chunk identifier" v := by
  refine ((Tells.ensureChunkType _).bind fun _ => (Tells.u64 _).bind fun _ => (Tells.u64 _).bind fun n =>
    (Tells.u64 _).bind fun k => (Tells.u32 _).bind fun _ => (Tells.u32 _).bind fun _ =>
    (tells_items n).bind fun ws => (tells_ngrams k).bind fun gs => Tells.still.bind0 fun _ => Tells.still).imp ?_
  rintro pos v ps ⟨_, _, _, rfl, rfl, _, _, _, rfl, ⟨_, rfl⟩, n, _, _, rfl, ⟨_, rfl⟩, _, _, _, rfl, ⟨_, rfl⟩,
    _, _, _, rfl, ⟨_, rfl⟩, _, _, _, rfl, ⟨_, rfl⟩, ws, _, _, rfl, rfl, gs, _, _, rfl, rfl, r, hr, h, rfl⟩
  obtain ⟨h1, h2, _⟩ := parts_of_new h
  have h3 : r.1.ngrams = gs.map (·.1) := by
    rw [newWithIndices_eq] at hr
    split at hr
    · cases hr; rfl
    · cases hr
  unfold Pieces.explicit
  rw [h1, h2, h3, List.append_nil, List.flatMap_map, List.append_assoc]
  rfl

theorem tells_floret : ERd.readFloret.Tells fun _ v ps => ps = Pieces.floret "Cannot read chunk identifier" v := by
  refine ((Tells.ensureChunkType _).bind fun _ => (Tells.u64 _).bind fun _ => (Tells.u32 _).bind fun _ =>
    (Tells.u32 _).bind fun _ => (Tells.u64 _).bind fun _ => (Tells.u32 _).bind fun _ => ((Tells.u32 _).bind fun _ =>
    (tells_string.inContext _).bind fun _ => (tells_string.inContext _).bind fun _ => Tells.still.bind0 fun _ =>
    Tells.still).guard).imp ?_
  rintro pos v ps ⟨_, _, _, rfl, rfl, _, _, _, rfl, ⟨_, rfl⟩, _, _, _, rfl, ⟨_, rfl⟩, _, _, _, rfl, ⟨_, rfl⟩,
    _, _, _, rfl, ⟨_, rfl⟩, _, _, _, rfl, ⟨_, rfl⟩, _, _, _, _, rfl, ⟨_, rfl⟩, bow, _, _, rfl, ⟨_, ⟨_, rfl⟩, rfl⟩,
    eow, _, _, rfl, ⟨_, ⟨_, rfl⟩, rfl⟩, _, _, h, rfl⟩
  obtain ⟨_, _, rfl, rfl⟩ := parts_of_new h
  rfl

theorem tells_metadata {T : Type} [Toml T] : (ERd.readMetadata : ERd (Metadata T)).Tells
    fun _ m ps => ∃ text, Toml.parse text = some m.inner ∧ ps = Pieces.metadata (utf8 text).length := by
  refine ((Tells.ensureChunkType _).bind fun _ => (Tells.u64 _).bind fun n => Tells.still.bind0 fun _ =>
    (Tells.exact _ n).bind fun _ => Tells.still.bind0 fun _ => Tells.still.bind0 fun t =>
    Tells.pure (⟨t⟩ : Metadata T)).imp ?_
  rintro pos m ps ⟨_, _, _, rfl, rfl, n, _, _, rfl, ⟨_, rfl⟩, _, _, b, _, _, rfl, ⟨rfl, rfl⟩, s, hs, t, ht, rfl, rfl⟩
  rw [utf8Decode_iff] at hs
  subst hs
  refine ⟨s, ?_, rfl⟩
  cases hp : (Toml.parse s : Option T) with
  | none => rw [hp] at ht; cases ht
  | some t' => rw [hp] at ht; cases ht; rfl

theorem tells_optMetadata {T : Type} [Toml T] : (ERd.readOptMetadata : ERd (Option (Metadata T))).Tells
    fun _ m ps => ∃ n, 1 ≤ n ∧ ((m = none ∧ ps = Pieces.header n) ∨
      ∃ t text, m = some ⟨t⟩ ∧ Toml.parse text = some t ∧ ps = Pieces.header n ++ Pieces.metadata (utf8 text).length) := by
  refine (tells_header.bind (M := fun h _ m ps => 1 ≤ h.ids.length ∧ ((m = none ∧ ps = []) ∨
      ∃ t text, m = some ⟨t⟩ ∧ Toml.parse text = some t ∧ ps = Pieces.metadata (utf8 text).length)) ?_).imp ?_
  · rintro ⟨ids⟩
    cases ids with
    | nil => exact (Tells.fail _).imp fun _ _ _ h => h.elim
    | cons i is =>
      refine ((tells_metadata.bind fun m => Tells.pure (some m)).ite (Tells.pure none)).imp ?_
      intro pos m ps h
      refine ⟨by simp, ?_⟩
      split at h
      · obtain ⟨a, _, _, rfl, ⟨text, h1, rfl⟩, rfl, rfl⟩ := h
        exact .inr ⟨a.inner, text, rfl, h1, by simp⟩
      · exact .inl h
  · rintro pos m ps ⟨h, _, _, rfl, rfl, h1, h2⟩
    refine ⟨h.ids.length, h1, ?_⟩
    rcases h2 with ⟨rfl, rfl⟩ | ⟨t, text, rfl, h3, rfl⟩
    · exact .inl ⟨rfl, List.append_nil _⟩
    · exact .inr ⟨t, text, rfl, h3, rfl⟩

theorem tells_vocab : ERd.readVocabWrap.Tells fun _ v ps =>
    ps = Pieces.vocab "Cannot read vocabulary chunk identifier" v := by
  refine (Tells.peek (M := fun _ _ v ps => ps = Pieces.vocab "Cannot read chunk identifier" v) ?_ ?_).imp ?_
  · intro i
    cases i
    case simpleVocab =>
      refine (tells_simple.bind fun v => Tells.pure _).imp ?_
      rintro pos v ps ⟨_, _, _, rfl, rfl, rfl, rfl⟩; simp [Pieces.vocab]
    case fastTextSubwordVocab =>
      refine ((tells_bucketed _).bind fun v => Tells.pure _).imp ?_
      rintro pos v ps ⟨_, _, _, rfl, rfl, rfl, rfl⟩; simp [Pieces.vocab]
    case bucketSubwordVocab =>
      refine ((tells_bucketed _).bind fun v => Tells.pure _).imp ?_
      rintro pos v ps ⟨_, _, _, rfl, rfl, rfl, rfl⟩; simp [Pieces.vocab]
    case explicitSubwordVocab =>
      refine (tells_explicit.bind fun v => Tells.pure _).imp ?_
      rintro pos v ps ⟨_, _, _, rfl, rfl, rfl, rfl⟩; simp [Pieces.vocab]
    case floretSubwordVocab =>
      refine (tells_floret.bind fun v => Tells.pure _).imp ?_
      rintro pos v ps ⟨_, _, _, rfl, rfl, rfl, rfl⟩; simp [Pieces.vocab]
    all_goals exact (Tells.fail _).imp fun _ _ _ h => h.elim
  · rintro i pos v ps rfl
    cases v <;> exact ⟨_, _, rfl⟩
  · rintro pos v ps ⟨i, e, qs, h, rfl⟩
    cases v <;> (cases h; rfl)

end

/-- Padding. -/
theorem tells_padding {α : Type} {m : ERd α} {M : Nat → α → List Piece → Prop} (h : m.Tells M) :
    (do let p ← quiet Rd.position; quiet (Rd.skip (padding 4 p)); m : ERd α).Tells
    fun pos a ps => ∃ qs, ps = align pos :: qs ∧ M (pos + (4 - pos % 4)) a qs := by
  refine (Tells.position.bind0 fun p => (Tells.skip _).bind fun _ => h).imp ?_
  rintro pos a ps ⟨p, rfl, _, _, p2, rfl, rfl, hM⟩
  exact ⟨p2, rfl, by simpa [total, len, padding] using hM⟩

theorem tells_arrayHead : ERd.readNdArrayHead.Tells fun pos _ ps =>
    ps = [Pieces.field "Cannot read chunk identifier" 4, Pieces.field "Cannot read embedding matrix chunk length" 8,
      Pieces.field "Cannot read number of rows of the embedding matrix" 8,
      Pieces.field "Cannot read number of columns of the embedding matrix" 4, Pieces.field "Cannot read type identifier" 4,
      align (pos + 28)] := by
  refine ((Tells.ensureChunkType _).bind fun _ => (Tells.u64 _).bind fun _ => (Tells.u64 _).bind fun r =>
    (Tells.u32 _).bind fun c => (Tells.ensureDataType _).bind fun _ => tells_padding (Tells.pure (r, c))).imp ?_
  rintro pos a ps ⟨_, _, _, rfl, rfl, _, _, _, rfl, ⟨_, rfl⟩, _, _, _, rfl, ⟨_, rfl⟩, _, _, _, rfl, ⟨_, rfl⟩,
    _, _, _, rfl, rfl, _, rfl, rfl, rfl⟩
  simp only [total, len, List.map_cons, List.map_nil, List.sum_cons, List.sum_nil, Nat.add_zero, Nat.add_assoc]
  rfl

theorem tells_array : ERd.readNdArray.Tells fun pos a ps => ps = Pieces.ndArray "Cannot read chunk identifier" pos a := by
  refine (tells_arrayHead.bind fun rc => Tells.still.bind0 fun _ => (Tells.floats _ (rc.1 * rc.2)).bind fun data =>
    Tells.pure (⟨Mat.ofFlat rc.1 rc.2 data⟩ : NdArray F32)).imp ?_
  rintro pos a ps ⟨⟨r, c⟩, _, _, rfl, rfl, _, _, data, _, _, rfl, ⟨_, rfl⟩, rfl, rfl⟩
  simp [Pieces.ndArray, Mat.ofFlat, chunks_length, Pieces.field]

theorem tells_projection (f n : Nat) : (ERd.readProjection f n).Tells fun pos p ps =>
    ps = align pos :: (p.toList.map fun p => Pieces.field "Cannot read projection matrix" (4 * (p.rows.length * p.cols))) := by
  refine (tells_padding ((Tells.still.bind0 fun _ => (Tells.floats _ (n * n)).bind fun xs =>
    Tells.pure (some (Mat.ofFlat n n xs))).ite (Tells.pure none))).imp ?_
  rintro pos p ps ⟨qs, rfl, h⟩
  split at h
  · obtain ⟨_, _, xs, _, _, rfl, ⟨_, rfl⟩, rfl, rfl⟩ := h
    simp [Mat.ofFlat, chunks_length, Pieces.field]
  · obtain ⟨rfl, rfl⟩ := h
    rfl

theorem tells_quantizers (n c s : Nat) : (ERd.readQuantizers n c s).Tells fun _ qs ps =>
    qs.length = n ∧ ps = [Pieces.field "Cannot read subquantizer" (4 * (n * (c * s)))] := by
  refine (Tells.still.bind0 fun _ => (Tells.floats _ _).bind fun xs => Tells.pure _).imp ?_
  rintro pos qs ps ⟨_, _, xs, _, _, rfl, ⟨_, rfl⟩, rfl, rfl⟩
  exact ⟨by simp, rfl⟩

theorem tells_pq : ERd.readPq.Tells fun pos r ps =>
    ps = [Pieces.field "Cannot read quantized embedding matrix projection" 4,
      Pieces.field "Cannot read quantized embedding matrix norms" 4,
      Pieces.field "Cannot read quantized embedding length" 4, Pieces.field "Cannot read reconstructed embedding length" 4,
      Pieces.field "Cannot read number of subquantizers" 4, Pieces.field "Cannot read number of quantized embeddings" 8,
      Pieces.field "Cannot read type identifier" 4, Pieces.field "Cannot read type identifier" 4, align (pos + 36)] ++
    (r.quantizer.projection.toList.map fun p =>
      Pieces.field "Cannot read projection matrix" (4 * (p.rows.length * p.cols))) ++
    [Pieces.field "Cannot read subquantizer"
      (4 * (r.quantizer.quantizers.length * (r.quantizer.nCentroids * r.quantizer.subDim)))] := by
  refine ((Tells.u32 _).bind fun pf => (Tells.u32 _).bind fun nf => (Tells.u32 _).bind fun ql =>
    (Tells.u32 _).bind fun rl => (Tells.u32 _).bind fun nc => (Tells.u64 _).bind fun ne =>
    (Tells.still.bind0 fun _ => (Tells.pure ()).guard).bind fun _ => (Tells.ensureDataType _).bind fun _ =>
    (Tells.ensureDataType _).bind fun _ => (tells_projection pf rl).bind fun proj =>
    (tells_quantizers ql nc (rl / ql)).bind fun qs => Tells.still.bind0 fun q =>
    Tells.pure (⟨ne, q, decide (nf ≠ 0)⟩ : PqRead)).imp ?_
  rintro pos r ps ⟨_, _, _, rfl, ⟨_, rfl⟩, _, _, _, rfl, ⟨_, rfl⟩, _, _, _, rfl, ⟨_, rfl⟩, _, _, _, rfl, ⟨_, rfl⟩,
    _, _, _, rfl, ⟨_, rfl⟩, _, _, _, rfl, ⟨_, rfl⟩, _, _, _, rfl, ⟨_, _, _, _, rfl⟩, _, _, _, rfl, rfl,
    _, _, _, rfl, rfl, proj, _, _, rfl, rfl, qs, _, _, rfl, ⟨rfl, rfl⟩, q, hq, rfl, rfl⟩
  obtain ⟨_, _, _, _, rfl⟩ := pqNew_iff.mp hq
  simp only [total, len, List.map_cons, List.map_nil, List.sum_cons, List.sum_nil, Nat.add_zero, Nat.add_assoc,
    List.append_nil, List.append_assoc]
  rfl

theorem tells_quantizedNorms (b : Bool) (n : Nat) : (ERd.readQuantizedNorms b n).Tells fun _ ns ps =>
    ps = ns.toList.map fun ns => Pieces.field "Cannot read norms" (4 * ns.length) := by
  refine ((Tells.still.bind0 fun _ => (Tells.floats _ n).bind fun xs => Tells.pure (some xs)).ite (Tells.pure none)).imp ?_
  intro pos ns ps h
  split at h
  · obtain ⟨_, _, xs, _, _, rfl, ⟨rfl, rfl⟩, rfl, rfl⟩ := h; rfl
  · obtain ⟨rfl, rfl⟩ := h; rfl

theorem tells_quantized : ERd.readQuantizedArray.Tells fun pos a ps =>
    ps = Pieces.quantized "Cannot read chunk identifier" pos a := by
  have h1 := (Tells.ensureChunkType .quantizedArray).bind fun _ =>
    (Tells.u64 "Cannot read quantized embedding matrix chunk length").bind fun _ =>
    tells_pq.bind fun r => (tells_quantizedNorms r.readNorms r.nEmbeddings).bind fun ns => Tells.pure (r, ns)
  refine (h1.bind fun rn => Tells.still.bind0 fun _ =>
    (Tells.exact _ (rn.1.nEmbeddings * rn.1.quantizer.quantizedLen)).bind fun cs =>
    Tells.pure (⟨rn.1.quantizer, Mat.ofFlat rn.1.nEmbeddings rn.1.quantizer.quantizedLen cs, rn.2⟩ :
      QuantizedArray F32)).imp ?_
  rintro pos a ps ⟨_, _, _, rfl, ⟨_, _, _, rfl, rfl, _, _, _, rfl, ⟨_, rfl⟩, r, _, _, rfl, rfl, ns, _, _, rfl, rfl, rfl, rfl⟩,
    _, _, cs, _, _, rfl, ⟨_, rfl⟩, rfl, rfl⟩
  simp only [total, len, List.map_cons, List.map_nil, List.sum_cons, List.sum_nil, Nat.add_zero, Nat.add_assoc,
    List.append_nil, List.append_assoc, Pieces.quantized, Mat.ofFlat, chunks_length]
  rfl

theorem tells_norms : ERd.readNorms.Tells fun pos n ps => ps = Pieces.norms pos n := by
  refine ((Tells.ensureChunkType _).bind fun _ => (Tells.u64 _).bind fun _ => (Tells.u64 _).bind fun n =>
    (Tells.ensureDataType _).bind fun _ => tells_padding (Tells.still.bind0 fun _ => (Tells.floats _ n).bind fun xs =>
    Tells.pure (⟨xs⟩ : NdNorms F32))).imp ?_
  rintro pos a ps ⟨_, _, _, rfl, rfl, _, _, _, rfl, ⟨_, rfl⟩, _, _, _, rfl, ⟨_, rfl⟩, _, _, _, rfl, rfl, _, rfl,
    _, _, _, _, _, rfl, ⟨rfl, rfl⟩, rfl, rfl⟩
  simp only [total, len, List.map_cons, List.map_nil, List.sum_cons, List.sum_nil, Nat.add_zero, Nat.add_assoc]
  rfl

theorem tells_storage : ERd.readStorageWrap.Tells fun pos a ps =>
    ps = Pieces.storage "Cannot read storage chunk identifier" pos a := by
  refine (Tells.peek (M := fun _ pos a ps => ps = Pieces.storage "Cannot read chunk identifier" pos a ∧
    ps ≠ []) ?_ ?_).imp ?_
  · intro i
    cases i
    case ndArray =>
      refine (tells_array.bind fun v => Tells.pure _).imp ?_
      rintro pos v ps ⟨_, _, _, rfl, rfl, rfl, rfl⟩; exact ⟨by simp [Pieces.storage], by simp [Pieces.ndArray]⟩
    case quantizedArray =>
      refine (tells_quantized.bind fun v => Tells.pure _).imp ?_
      rintro pos v ps ⟨_, _, _, rfl, rfl, rfl, rfl⟩; exact ⟨by simp [Pieces.storage], by simp [Pieces.quantized]⟩
    all_goals exact (Tells.fail _).imp fun _ _ _ h => h.elim
  · rintro i pos v ps ⟨rfl, h⟩
    cases v
    case ndArray => exact ⟨_, _, rfl⟩
    case quantized => exact ⟨_, _, rfl⟩
    all_goals exact absurd rfl h
  · rintro pos v ps ⟨i, e, qs, ⟨h, _⟩, rfl⟩
    cases v
    case ndArray => cases h; rfl
    case quantized => cases h; rfl
    all_goals cases h

theorem tells_storageView : ERd.readStorageViewWrap.Tells fun pos a ps => ∃ x, a = .ndArray x ∧
    ps = Pieces.ndArray "Cannot read storage chunk identifier" pos x := by
  refine (Tells.peek (M := fun _ pos a ps => ∃ x, a = .ndArray x ∧
    ps = Pieces.ndArray "Cannot read chunk identifier" pos x) ?_ ?_).imp ?_
  · intro i
    cases i
    case ndArray =>
      refine (tells_array.bind fun v => Tells.pure _).imp ?_
      rintro pos v ps ⟨x, _, _, rfl, rfl, rfl, rfl⟩; exact ⟨x, rfl, by simp⟩
    all_goals exact (Tells.fail _).imp fun _ _ _ h => h.elim
  · rintro i pos v ps ⟨x, rfl, rfl⟩
    exact ⟨_, _, rfl⟩
  · rintro pos v ps ⟨i, e, qs, ⟨x, rfl, h⟩, rfl⟩
    cases h
    exact ⟨x, rfl, rfl⟩

/-! ## C108 -/

/-- Specification: `m` is `r` with whole errors. Whatever data `r` accepts consists of pieces as `L` says; of a beginning
of that data, `m` says which field is missing or incomplete, and if none is, the beginning is as good as the whole. -/
def SaysWhere {α : Type} (m : ERd α) (r : Rd α) (L : Nat → α → List Piece → Prop) : Prop :=
  (∀ d pos, (m d pos).kinds = r d pos) ∧
  ∀ d pos a q, r d pos = .ok (a, q) → ∃ ps, L pos a ps ∧ q = pos + total ps ∧
    ∀ c, m (d.take c) pos = match missing ps (c - pos) with
      | some e => .err e
      | none => .ok (a, q)

theorem ok_of_kinds {α : Type} {x : ERes α} {a : α} (h : x.kinds = .ok a) : x = .ok a := by
  cases x <;> cases h
  rfl

theorem SaysWhere.of {α : Type} {m : ERd α} {r : Rd α} {L : Nat → α → List Piece → Prop} (hk : KindOf m r) (ht : m.Tells L) :
    SaysWhere m r L := by
  refine ⟨hk, fun d pos a q h => ?_⟩
  obtain ⟨ps, h1, h2, h3⟩ := ht d pos (a, q) (ok_of_kinds ((hk d pos).trans h))
  exact ⟨ps, h1, h2, h3⟩

/-- C108, the header. -/
theorem c108_header : SaysWhere readHeader (readChunk : Rd Header) fun _ h ps => ps = Pieces.header h.ids.length :=
  .of kindOf_header tells_header

section
variable [ErrorText]

/-- C108, metadata. -/
theorem c108_metadata {T : Type} [Toml T] : SaysWhere ERd.readMetadata (readChunk : Rd (Metadata T))
    fun _ m ps => ∃ text, Toml.parse text = some m.inner ∧ ps = Pieces.metadata (utf8 text).length :=
  .of kindOf_metadata tells_metadata

/-- C108, vocabularies of words. -/
theorem c108_simple : SaysWhere readSimple (readChunk : Rd SimpleVocab)
    fun _ v ps => ps = Pieces.simple "Cannot read chunk identifier" v := .of kindOf_simple tells_simple

/-- C108, vocabularies with hash buckets. -/
theorem c108_bucket : SaysWhere (ERd.readBucketed .bucketSubwordVocab) (readChunk : Rd BucketSubwordVocab)
    fun _ v ps => ps = Pieces.bucketed "Cannot read chunk identifier" v := .of kindOf_bucket (tells_bucketed _)

/-- C108, fastText vocabularies. -/
theorem c108_fasttext : SaysWhere (ERd.readBucketed .fastTextSubwordVocab) (readChunk : Rd FastTextSubwordVocab)
    fun _ v ps => ps = Pieces.bucketed "Cannot read chunk identifier" v := .of kindOf_fastText (tells_bucketed _)

/-- C108, explicit vocabularies. -/
theorem c108_explicit : SaysWhere ERd.readExplicit (readChunk : Rd ExplicitSubwordVocab)
    fun _ v ps => ps = Pieces.explicit "Cannot read chunk identifier" v := .of kindOf_explicit tells_explicit

/-- C108, floret vocabularies. -/
theorem c108_floret : SaysWhere ERd.readFloret (readChunk : Rd FloretSubwordVocab)
    fun _ v ps => ps = Pieces.floret "Cannot read chunk identifier" v := .of kindOf_floret tells_floret

/-- C108, vocabularies of any kind. -/
theorem c108_vocab : SaysWhere ERd.readVocabWrap (readChunk : Rd VocabWrap)
    fun _ v ps => ps = Pieces.vocab "Cannot read vocabulary chunk identifier" v := .of kindOf_vocab tells_vocab

end

/-- C108, matrices. -/
theorem c108_array : SaysWhere ERd.readNdArray (readChunk : Rd (NdArray F32))
    fun pos a ps => ps = Pieces.ndArray "Cannot read chunk identifier" pos a := .of kindOf_array tells_array

/-- C108, quantized matrices. -/
theorem c108_quantized : SaysWhere ERd.readQuantizedArray (readChunk : Rd (QuantizedArray F32))
    fun pos a ps => ps = Pieces.quantized "Cannot read chunk identifier" pos a := .of kindOf_quantized tells_quantized

/-- C108, norms. -/
theorem c108_norms : SaysWhere ERd.readNorms (readChunk : Rd (NdNorms F32)) fun pos n ps => ps = Pieces.norms pos n :=
  .of kindOf_norms tells_norms

/-- C108, storages of any kind. -/
theorem c108_storage : SaysWhere ERd.readStorageWrap (readChunk : Rd StorageWrap)
    fun pos a ps => ps = Pieces.storage "Cannot read storage chunk identifier" pos a := .of kindOf_storage tells_storage

/-- C108, storages with a view. -/
theorem c108_storage_view : SaysWhere ERd.readStorageViewWrap (readChunk : Rd StorageViewWrap)
    fun pos a ps => ∃ x, a = .ndArray x ∧ ps = Pieces.ndArray "Cannot read storage chunk identifier" pos x :=
  .of kindOf_storageView tells_storageView

/-- Specification: the norms that are left of a file if the storage ends at `p` and the file at `c`. -/
def normsLeft (p c : Nat) : Option (NdNorms F32) → Option (NdNorms F32)
  | some n => if missing (Pieces.norms p n) (c - p) = none then some n else none
  | none => none

/-- C108, files with any kinds of chunks: the errors are those of the model without messages, and of a beginning of an
accepted file the reader says which field is incomplete, unless that is in the norms: then there are none. -/
theorem c108_file {T V S : Type} [ErrorText] [Toml T] [ReadChunk V] [ReadChunk S] {mv : ERd V} {ms : ERd S}
    {LV : Nat → V → List Piece → Prop} {LS : Nat → S → List Piece → Prop}
    (hv : SaysWhere mv (readChunk : Rd V) LV) (hs : SaysWhere ms (readChunk : Rd S) LS) :
    (∀ d pos, (readEmbeddings mv ms d pos : ERes (Embeddings T V S F32)).kinds = Embeddings.read d pos) ∧
    ∀ (d : Bytes) (pos : Nat) (e : Embeddings T V S F32), Embeddings.read d pos = .ok e →
      ∃ p1 p2 p3 n, 1 ≤ n ∧ ((e.metadata = none ∧ p1 = Pieces.header n) ∨
        ∃ t text, e.metadata = some ⟨t⟩ ∧ Toml.parse text = some t ∧
          p1 = Pieces.header n ++ Pieces.metadata (utf8 text).length) ∧
      LV (pos + total p1) e.vocab p2 ∧ LS (pos + total p1 + total p2) e.storage p3 ∧
      ∀ c, readEmbeddings mv ms (d.take c) pos = match missing (p1 ++ p2 ++ p3) (c - pos) with
        | some x => .err x
        | none => .ok { e with norms := normsLeft (pos + total (p1 ++ p2 ++ p3)) c e.norms } := by
  have hk : ∀ d pos, (readEmbeddings mv ms d pos : ERes (Embeddings T V S F32)).kinds = Embeddings.read d pos := by
    intro d pos
    have h1 : KindOf (readHead mv) (Embeddings.readHead : Rd (Option (Metadata T) × V)) :=
      kindOf_optMetadata.bind fun m => KindOf.bind hv.1 fun v => .pure _
    have e1 := h1 d pos
    unfold readEmbeddings Embeddings.read Embeddings.readWith
    rw [← e1]
    cases (readHead mv d pos : ERes ((Option (Metadata T) × V) × Nat)) with
    | err x => rfl
    | panic => rfl
    | ok r =>
      obtain ⟨⟨m, v⟩, p⟩ := r
      show ERes.kinds (ERes.bind (ms d p) _) = Res.bind (readChunk d p) _
      rw [← hs.1 d p]
      cases ms d p with
      | err x => rfl
      | panic => rfl
      | ok r =>
        obtain ⟨s, q⟩ := r
        show ERes.kinds (ERes.bind (orNone (ERd.readNorms d q)) _) = Res.bind (Embeddings.orNone (FF.readNorms d q)) _
        rw [← kindOf_norms d q]
        cases ERd.readNorms d q <;> rfl
  refine ⟨hk, fun d pos e he => ?_⟩
  unfold Embeddings.read Embeddings.readWith at he
  obtain ⟨⟨⟨m, v⟩, p⟩, h1, he⟩ := Res.bind_eq_ok.mp he
  obtain ⟨⟨s, q⟩, h2, he⟩ := Res.bind_eq_ok.mp he
  obtain ⟨n, h3, he⟩ := Res.bind_eq_ok.mp he
  unfold Embeddings.readHead at h1
  obtain ⟨m', p', h4, h1⟩ := Rd.bind_ok.mp h1
  obtain ⟨v', p'', h5, h1⟩ := Rd.bind_ok.mp h1
  cases h1
  obtain ⟨pm, ⟨k, hk1, hm⟩, e1, c1⟩ := tells_optMetadata d pos _ (ok_of_kinds ((kindOf_optMetadata d pos).trans h4))
  obtain ⟨pv, hLV, e2, c2⟩ := hv.2 _ _ _ _ h5
  obtain ⟨ps, hLS, e3, c3⟩ := hs.2 _ _ _ _ h2
  cases he
  simp only at e1
  refine ⟨pm, pv, ps, k, hk1, ?_, e1 ▸ hLV, ?_, fun c => ?_⟩
  · exact hm
  · rw [← e1, ← e2]; exact hLS
  · have eq : q = pos + total (pm ++ pv ++ ps) := by rw [total_append, total_append]; omega
    unfold readEmbeddings readHead
    rw [ERd.bind_apply, c1 c, missing_append, missing_append]
    cases missing pm (c - pos) with
    | some x => rfl
    | none =>
      simp only [ERes.bind, ERd.bind_apply, c2 c, Option.none_or]
      rw [show c - pos - total pm = c - p' by omega]
      cases missing pv (c - p') with
      | some x => rfl
      | none =>
        simp only [ERd.pure_apply, c3 c, Option.none_or]
        rw [total_append, show c - pos - (total pm + total pv) = c - p by omega]
        cases missing ps (c - p) with
        | some x => rfl
        | none =>
          have key : orNone (ERd.readNorms (d.take c) q) = .ok ((normsLeft q c (n.map (·.1))).map fun x => (x, (n.map (·.2)).getD 0)) := by
            cases hn : n with
            | none =>
              rw [hn] at h3
              have hne : ∃ x, (readChunk : Rd (NdNorms F32)) d q = .err x := by
                cases hh : (readChunk : Rd (NdNorms F32)) d q with
                | ok a => rw [hh] at h3; cases h3
                | err x => exact ⟨x, rfl⟩
                | panic => rw [hh] at h3; cases h3
              obtain ⟨x, hx⟩ := hne
              have hmono := readNorms_mono.mono (d.take c) (d.drop c) q
              rw [List.take_append_drop] at hmono
              have : ∃ y, FF.readNorms (d.take c) q = .err y := by
                rcases hmono with h | h
                · exact ⟨_, h⟩
                · exact ⟨x, h.symm.trans hx⟩
              obtain ⟨y, hy⟩ := this
              rw [← kindOf_norms] at hy
              cases hz : ERd.readNorms (d.take c) q with
              | ok a => rw [hz] at hy; cases hy
              | err e => rfl
              | panic => rw [hz] at hy; cases hy
            | some n' =>
              rw [hn] at h3
              have hok : (readChunk : Rd (NdNorms F32)) d q = .ok n' := by
                cases hh : (readChunk : Rd (NdNorms F32)) d q with
                | ok a => rw [hh] at h3; cases h3; rfl
                | err x => rw [hh] at h3; cases h3
                | panic => rw [hh] at h3; cases h3
              obtain ⟨_, rfl, e4, c4⟩ := c108_norms.2 _ _ _ _ hok
              rw [c4 c]
              simp only [normsLeft, Option.map_some]
              cases missing (Pieces.norms q n'.1) (c - q) <;> simp [orNone]
          show ERes.bind (orNone (ERd.readNorms (d.take c) q)) _ = _
          rw [key, ← eq]
          simp only [ERes.bind]
          cases n with
          | none => rfl
          | some n' =>
            simp only [normsLeft, Option.map_some]
            split <;> rfl

/-! ## Examples -/

@[instance_reducible] def exampleErrorText : ErrorText := ⟨fun _ => "invalid utf-8", fun _ => "expected an equals"⟩

open Layout

/-- A file with a vocabulary and a matrix is accepted (`exampleFile_read`), so C108 applies to each of its beginnings. -/
example := (@c108_file _ SimpleVocab (NdArray F32) exampleErrorText exampleToml _ _ _ _ _ _
  (@c108_simple exampleErrorText) c108_array).2 exampleFile 0 _ exampleFile_read

/-- What is said of some beginnings of that file: within the second word, before the matrix, within the matrix. -/
example : @ERd.readEmbeddings exampleErrorText _ _ _ exampleToml (@readSimple exampleErrorText) ERd.readNdArray
      (exampleFile.take 50) 0 = .err (.read "Cannot read item") ∧
    @ERd.readEmbeddings exampleErrorText _ _ _ exampleToml (@readSimple exampleErrorText) ERd.readNdArray
      (exampleFile.take 51) 0 = .err (.read "Cannot read chunk identifier") ∧
    @ERd.readEmbeddings exampleErrorText _ _ _ exampleToml (@readSimple exampleErrorText) ERd.readNdArray
      (exampleFile.take 85) 0 = .err (.read "Cannot read embedding matrix") := by
  decide +kernel

/-- The header, the matrix and the quantized matrix of the examples are accepted: the hypotheses of C108. -/
example : (readChunk : Rd Header) exampleFile 0 = .ok (⟨[.simpleVocab, .quantizedArray]⟩, 20) ∧
    (readChunk : Rd SimpleVocab) exampleFile 20 = .ok (⟨createIndices [['a'], ['b', 'c']], [['a'], ['b', 'c']]⟩, 51) ∧
    (readChunk : Rd (NdArray F32)) exampleFile 51 = .ok (⟨⟨1, [[0x3f800000], [0x40000000]]⟩⟩, 88) ∧
    (readChunk : Rd (QuantizedArray F32)) (writeChunk exampleQuantized 0).bytes 0 = .ok (exampleQuantized, 166) := by
  decide +kernel

/-- What is said of a quantized matrix that ends in its projection or in its codes. -/
example : ERd.readQuantizedArray ((writeChunk exampleQuantized 0).bytes.take 100) 0 =
      .err (.read "Cannot read projection matrix") ∧
    ERd.readQuantizedArray ((writeChunk exampleQuantized 0).bytes.take 165) 0 =
      .err (.read "Cannot read quantized embeddings") := by
  decide +kernel

/-- A floret vocabulary without words, and what is said if it ends in its second marker. -/
example : ((readChunk : Rd FloretSubwordVocab) (le32 9 ++ le64 0 ++ le32 3 ++ le32 6 ++ le64 100 ++ le32 2 ++ le32 7 ++
      Layout.string ['<'] ++ Layout.string ['>']) 0).map (·.2) = .ok 46 ∧
    @ERd.readFloret exampleErrorText (le32 9 ++ le64 0 ++ le32 3 ++ le32 6 ++ le64 100 ++ le32 2 ++ le32 7 ++
      Layout.string ['<'] ++ le32 1) 0 = .err (.context "Cannot read end of word marker" (.read "Cannot read item")) := by
  decide +kernel

/-- Other chunks that are accepted. -/
example : ((readChunk : Rd BucketSubwordVocab) (le32 3 ++ le64 0 ++ le64 1 ++ le32 3 ++ le32 6 ++ le32 21 ++
      Layout.string ['a']) 0).map (·.2) = .ok 37 ∧
    ((readChunk : Rd FastTextSubwordVocab) (le32 7 ++ le64 0 ++ le64 1 ++ le32 3 ++ le32 6 ++ le32 2000 ++
      Layout.string ['a']) 0).map (·.2) = .ok 37 ∧
    ((readChunk : Rd ExplicitSubwordVocab) (le32 8 ++ le64 0 ++ le64 1 ++ le64 1 ++ le32 3 ++ le32 6 ++
      Layout.string ['a'] ++ Layout.string ['<', 'a', '>'] ++ le64 0) 0).map (·.2) = .ok 56 ∧
    ((readChunk : Rd VocabWrap) exampleFile 20).map (·.2) = .ok 51 ∧
    ((readChunk : Rd StorageWrap) (writeChunk exampleQuantized 0).bytes 0).map (·.2) = .ok 166 ∧
    ((readChunk : Rd StorageViewWrap) exampleFile 51).map (·.2) = .ok 88 ∧
    ((readChunk : Rd (NdNorms F32)) (le32 6 ++ le64 12 ++ le64 1 ++ le32 10 ++ le32 0 ++ floats [0x40000000]) 0).map (·.2) = .ok 32 ∧
    ((@FF.readMetadata _ exampleToml) (le32 5 ++ le64 1 ++ ascii "a") 0).map (·.2) =
      .ok 13 := by
  decide +kernel

end FF
