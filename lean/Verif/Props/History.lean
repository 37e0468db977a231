import Verif.Model.Accessors
import Verif.Props.Exact
import Verif.Props.ExplicitFile
import Verif.Props.Quantize
import Verif.Props.Rewrite
import Verif.Props.Lookup

/-!
# C114: embeddings stay usable through any sequence of operations
-/

namespace FF

open Res Embeddings

/-- Embeddings as the wrapper types. -/
abbrev Wrapped (T : Type) : Type := Embeddings T VocabWrap StorageWrap F32

section
variable {T : Type} [Scalar F32]

/-! ## Specification -/

/-- Specification: storages in memory that can be looked up. -/
def InMemory : StorageWrap → Prop
  | .ndArray a => a.inner.WF
  | .quantized a => a.WF ∧ a.CodesOk
  | _ => False

/-- Specification: `s` is `a`, or `s` is mapped from data from which `a` can be read. -/
def Loaded (s a : StorageWrap) : Prop :=
  InMemory a ∧ (s = a ∨ ∃ d pos p, (readChunk : Rd StorageWrap) d pos = .ok (a, p) ∧ mmapStorageWrap d pos = .ok (s, p))

/-- Specification: usable embeddings. The vocabulary comes from a constructor, floret vocabularies have no words (as in all floret
files, see C10), the storage can be looked up, and the sizes agree. -/
structure Sound (e : Wrapped T) : Prop where
  vocab : UsableVocab e.vocab
  noWords : ∀ v, e.vocab = .floret v → v.words = []
  storage : ∃ a, Loaded e.storage a
  sizes : Consistent e

/-- Specification: the parts of a vocabulary besides the words fit the fields of the format. -/
def VocabFits : VocabWrap → Prop
  | .simple _ => True
  | .bucket v => v.minN < 2 ^ 32 ∧ v.maxN < 2 ^ 32
  | .fastText v => v.minN < 2 ^ 32 ∧ v.maxN < 2 ^ 32
  | .explicit v => v.minN < 2 ^ 32 ∧ v.maxN < 2 ^ 32 ∧ (∀ g ∈ v.indexer.ngrams, strLen g < 2 ^ 32) ∧
      32 * v.indexer.ngrams.length ≤ isizeMax
  | .floret v => v.minN < 2 ^ 32 ∧ v.maxN < 2 ^ 32 ∧ strLen v.bow < 2 ^ 32 ∧ strLen v.eow < 2 ^ 32

/-- Specification: embeddings whose sizes fit the fields of the format, and whose metadata are read back by the TOML library. -/
structure FitsFormat [Toml T] (e : Wrapped T) : Prop where
  metadata : ∀ m ∈ e.metadata, Toml.parse (Toml.print m.inner) = some m.inner ∧ strLen (Toml.print m.inner) ≤ isizeMax
  words : WordsFit (Vocab.words e.vocab)
  vocab : VocabFits e.vocab
  storage : InMemory e.storage → StorableStorage e.storage
  norms : ∀ n ∈ e.norms, 4 * n.inner.length ≤ isizeMax

/-- What a user can do with embeddings, any number of times and in any order: replace the metadata, write a file and read it or map it
(the file may begin anywhere in a stream), and, if allowed, convert to explicit n-grams (`c`) and quantize (`q`). -/
inductive History [Toml T] (q c : Bool) : Wrapped T → Wrapped T → Prop
  | none (e : Wrapped T) : History q c e e
  | metadata {e e' : Wrapped T} (m : Option (Metadata T)) : History q c e e' → History q c e (e'.setMetadata m).1
  | file {e e' e'' : Wrapped T} (pre : Bytes) : History q c e e' → FitsFormat e' →
      read (pre ++ (e'.write pre.length).bytes) pre.length = .ok e'' → History q c e e''
  | mapped {e e' e'' : Wrapped T} (pre : Bytes) : History q c e e' → FitsFormat e' →
      mmap mmapStorageWrap (pre ++ (e'.write pre.length).bytes) pre.length = .ok e'' → History q c e e''
  | explicit {e e' : Wrapped T} {e'' : Embeddings T ExplicitSubwordVocab StorageWrap F32} (hc : c = true)
      (order : List (Str × Nat) → List (Str × Nat)) (hord : ∀ l, (order l).Perm l)
      (order2 : List (Nat × Nat) → List (Nat × Nat)) (hord2 : ∀ l, (order2 l).Perm l) : History q c e e' →
      e'.tryToExplicit order order2 = .ok e'' → History q c e (e''.into .explicit id)
  | quantizeArray {e e' : Wrapped T} {e'' : Embeddings T VocabWrap (QuantizedArray F32) F32} (hq : q = true) (t : PqTrainer F32)
      (ht : TrainerContract t) (k bits it att : Nat) (normalize : Bool) (a : NdArray F32) : History q c e e' →
      e'.storage = .ndArray a →
      Embeddings.quantize t k bits it att normalize ⟨e'.metadata, a, e'.vocab, e'.norms⟩ = .ok e'' →
      History q c e (e''.into id .quantized)
  | quantizeMapped {e e' : Wrapped T} {e'' : Embeddings T VocabWrap (QuantizedArray F32) F32} (hq : q = true) (t : PqTrainer F32)
      (ht : TrainerContract t) (k bits it att : Nat) (normalize : Bool) (a : MmapArray) : History q c e e' →
      e'.storage = .mmapArray a →
      Embeddings.quantize t k bits it att normalize ⟨e'.metadata, a, e'.vocab, e'.norms⟩ = .ok e'' →
      History q c e (e''.into id .quantized)

/-! ## Storages -/

/-- Nothing that the library does with `s` differs from what it does with `a`. -/
structure SameUse (s a : StorageWrap) : Prop where
  rows : SameRows s a
  clone : ∀ mapping, (cloneFromMapping s mapping : Res StorageWrap) = cloneFromMapping a mapping
  write : ∀ off, writeChunk s off = writeChunk a off
  id : chunkId s = chunkId a

theorem SameUse.of_mapped {s a : StorageWrap} {d : Bytes} {pos p : Nat} (hr : (readChunk : Rd StorageWrap) d pos = .ok (a, p))
    (hm : mmapStorageWrap d pos = .ok (s, p)) : SameUse s a := by
  have hr : readStorageWrap d pos = .ok (a, p) := hr
  cases hu : u32At d pos with
  | none => rw [(c16_storage.2.2.1 d pos).1 hu] at hr; cases hr
  | some c =>
    by_cases h2 : c = 2
    · subst h2
      rw [c16_storage.1 d pos hu] at hr
      obtain ⟨⟨a', p'⟩, ha, e⟩ := map_eq_ok.mp hr
      cases e
      obtain ⟨m, hm', hs, _, hc, hw⟩ := c21_array d pos _ a' ha
      rw [c16_storage.2.2.2.1 d pos hu, hm'] at hm
      cases hm
      exact ⟨hs, fun mapping => congrArg (Res.map StorageWrap.ndArray) (hc mapping), fun off => (hw off).1, rfl⟩
    · by_cases h4 : c = 4
      · subst h4
        rw [c16_storage.2.1 d pos hu] at hr
        obtain ⟨⟨a', p'⟩, ha, e⟩ := map_eq_ok.mp hr
        cases e
        obtain ⟨m, hm', hs, _, hc, hw⟩ := c21_quantized d pos _ a' ha
        rw [c16_storage.2.2.2.2.1 d pos hu, hm'] at hm
        cases hm
        exact ⟨hs, fun mapping => congrArg (Res.map StorageWrap.quantized) (hc mapping), fun off => (hw off).1, rfl⟩
      · rw [(c16_storage.2.2.1 d pos).2 c hu (by simp [h2, h4])] at hr; cases hr

theorem Loaded.same {s a : StorageWrap} (h : Loaded s a) : SameUse s a := by
  obtain ⟨_, rfl | ⟨d, pos, p, hr, hm⟩⟩ := h
  · exact ⟨⟨rfl, fun _ => rfl, fun _ => rfl⟩, fun _ => rfl, fun _ => rfl, rfl⟩
  · exact .of_mapped hr hm

theorem InMemory.usable {a : StorageWrap} (h : InMemory a) : UsableStorage a := by
  cases a with
  | ndArray a => exact h
  | quantized a => exact h
  | mmapArray a => exact h.elim
  | mmapQuantized a => exact h.elim

omit [Scalar F32] in
theorem InMemory.clone {a t : StorageWrap} {mapping : List Nat} (h : InMemory a) (hc : cloneFromMapping a mapping = .ok t) :
    InMemory t := by
  cases a with
  | ndArray a =>
    obtain ⟨t', h', rfl⟩ := map_eq_ok.mp hc
    have h' : (a.inner.select mapping).map NdArray.mk = .ok t' := h'
    obtain ⟨m', h'', rfl⟩ := map_eq_ok.mp h'
    exact (select_keeps h'').2.2 h
  | quantized a =>
    obtain ⟨t', h', rfl⟩ := map_eq_ok.mp hc
    obtain ⟨hw, hk⟩ := h
    have h' : (a.codes.select mapping >>= fun codes => selectNorms a.norms mapping >>= fun norms =>
      Res.ok (QuantizedArray.mk a.quantizer codes norms)) = .ok t' := h'
    obtain ⟨codes, hcs, h'⟩ := Res.bind_eq_ok.mp h'
    obtain ⟨norms, hns, h'⟩ := Res.bind_eq_ok.mp h'
    cases h'
    obtain ⟨k1, k2, k3⟩ := select_keeps hcs
    have hnl : ∀ ns, norms = some ns → ns.length = mapping.length := by
      unfold selectNorms at hns
      cases hna : a.norms with
      | none => rw [hna] at hns; cases hns; intro _ h; cases h
      | some ns =>
        rw [hna] at hns
        obtain ⟨xs, hxs, rfl⟩ := map_eq_ok.mp hns
        rintro _ ⟨⟩; exact mapM_length hxs
    refine ⟨⟨hw.pq, k3 hw.codes, k1.trans hw.cols, fun ns h => by rw [k2]; exact hnl ns h⟩, fun r hr => ?_⟩
    have hcs : a.codes.select mapping = .ok codes := hcs
    rw [select_eq] at hcs
    obtain ⟨rs, hrs, rfl⟩ := map_eq_ok.mp hcs
    have := List.mem_map_of_mem (f := Res.ok) hr
    rw [← mapM_eq_ok_iff.mp hrs] at this
    obtain ⟨i, _, hi⟩ := List.mem_map.mp this
    unfold Mat.row at hi
    cases hg : a.codes.rows[i]? with
    | none => rw [hg] at hi; cases hi
    | some r' =>
      rw [hg] at hi; cases hi
      exact hk r (List.mem_of_getElem? hg)
  | mmapArray a => exact h.elim
  | mmapQuantized a => exact h.elim

theorem Loaded.rows {s a : StorageWrap} (h : Loaded s a) : RowsSized s ∧ RowsTotal s :=
  ⟨SameRows.rowsSized h.same.rows h.1.usable.rows.1, SameRows.rowsTotal h.same.rows h.1.usable.rows.2⟩

theorem Loaded.mapsTotal {s a : StorageWrap} (h : Loaded s a) : MapsTotal (S' := StorageWrap) s := by
  intro mapping hm
  rw [h.same.clone]
  exact h.1.usable.mapsTotal mapping fun j hj => h.same.rows.1 ▸ hm j hj

omit [Scalar F32] in
theorem Loaded.roundTrips [Toml T] {e : Wrapped T} {a : StorageWrap} (h : Loaded e.storage a) (hf : FitsFormat e) : RoundTrips a := by
  obtain ⟨hi, hs | ⟨d, pos, p, hr, _⟩⟩ := h
  · exact hs ▸ (hf.storage (hs ▸ hi)).roundTrips
  · exact c87_storage.2.2.1 d pos a p hr

/-! ## Vocabularies -/

/-- What a file keeps of a vocabulary: everything but the markers (those of floret vocabularies are kept). -/
def asRead : VocabWrap → VocabWrap
  | .simple v => .simple v
  | .bucket v => .bucket { v with bow := ['<'], eow := ['>'] }
  | .fastText v => .fastText { v with bow := ['<'], eow := ['>'] }
  | .explicit v => .explicit { v with bow := ['<'], eow := ['>'] }
  | .floret v => .floret v

omit [Scalar F32] in
theorem usable_asRead {v : VocabWrap} (h : UsableVocab v) : UsableVocab (asRead v) := by
  cases v with
  | simple v => exact h
  | bucket v =>
    obtain ⟨e, ix, ws, m, M, bow, eow, h1, h2, h3, h4⟩ := h
    exact ⟨e, ix, ws, m, M, _, _, h1, newWithBoundaries_default h2, h3, h4⟩
  | fastText v =>
    obtain ⟨b, ix, ws, m, M, bow, eow, h1, h0, h2, h3, h4⟩ := h
    exact ⟨b, ix, ws, m, M, _, _, h1, h0, newWithBoundaries_default h2, h3, h4⟩
  | explicit v =>
    obtain ⟨ix, ws, m, M, bow, eow, h1, h2, h3, h4⟩ := h
    exact ⟨ix, ws, m, M, _, _, h1, newWithBoundaries_default h2, h3, h4⟩
  | floret v => exact h

omit [Scalar F32] in
theorem parts_of {I : Type} [Indexer I] {ws : List Str} {m M : Nat} {ix : I} {bow eow : Str} {v : SubwordVocab I}
    (h : SubwordVocab.newWithBoundaries ws m M ix bow eow = .ok v) :
    v.words = ws ∧ v.minN = m ∧ v.maxN = M ∧ v.indexer = ix ∧ v.bow = bow ∧ v.eow = eow := by
  obtain ⟨_, _, rfl⟩ := SubwordVocab.newWithBoundaries_eq_ok.mp h
  exact ⟨rfl, rfl, rfl, rfl, rfl, rfl⟩

omit [Scalar F32] in
theorem storable_asRead {v : VocabWrap} (h : UsableVocab v) (hn : ∀ u, v = .floret u → u.words = [])
    (hw : WordsFit (Vocab.words v)) (hf : VocabFits v) : StorableVocab (asRead v) := by
  cases v with
  | simple v =>
    obtain ⟨ws, h1⟩ := h
    exact ⟨ws, h1, (c22_simple ws v h1).1 ▸ hw⟩
  | bucket v =>
    obtain ⟨e, ix, ws, m, M, bow, eow, h1, h2, h3, h4⟩ := h
    obtain ⟨rfl, rfl, rfl, rfl, rfl, rfl⟩ := parts_of h2
    exact ⟨e, _, _, _, _, h1, newWithBoundaries_default h2, hw, hf.1, hf.2⟩
  | fastText v =>
    obtain ⟨b, ix, ws, m, M, bow, eow, h1, h0, h2, h3, h4⟩ := h
    obtain ⟨rfl, rfl, rfl, rfl, rfl, rfl⟩ := parts_of h2
    exact ⟨b, _, _, _, _, h1, newWithBoundaries_default h2, hw, hf.1, hf.2⟩
  | explicit v =>
    obtain ⟨ix, ws, m, M, bow, eow, h1, h2, h3, h4⟩ := h
    obtain ⟨rfl, rfl, rfl, rfl, rfl, rfl⟩ := parts_of h2
    exact ⟨_, _, _, _, h1, newWithBoundaries_default h2, hw, hf.2.2.1, hf.2.2.2, hf.1, hf.2.1⟩
  | floret v =>
    obtain ⟨nb, nh, seed, ix, ws, m, M, bow, eow, h1, h2, h3, h4⟩ := h
    obtain ⟨rfl, rfl, rfl, rfl, rfl, rfl⟩ := parts_of h2
    rw [hn v rfl] at h2
    exact ⟨nb, nh, seed, _, _, _, _, _, h1, h2, hf.2.2.1, hf.2.2.2, hf.1, hf.2.1⟩

omit [Scalar F32] in
theorem write_asRead (v : VocabWrap) (off : Nat) : writeChunk (asRead v) off = writeChunk v off ∧
    chunkId (asRead v) = chunkId v := by
  cases v <;> exact ⟨rfl, rfl⟩

omit [Scalar F32] in
theorem words_asRead (v : VocabWrap) : Vocab.words (asRead v) = Vocab.words v ∧
    Vocab.wordsLen (asRead v) = Vocab.wordsLen v ∧ Vocab.vocabLen (asRead v) = Vocab.vocabLen v := by
  cases v <;> exact ⟨rfl, rfl, rfl⟩

omit [Scalar F32] in
theorem idx_of_word {v : VocabWrap} (h : UsableVocab v) (i : Nat) (w : Str) :
    Vocab.idx v w = .ok (some (.word i)) ↔ (Vocab.words v)[i]? = some w := by
  cases v with
  | simple v =>
    obtain ⟨ws, h1⟩ := h
    have := c22_simple ws v h1
    rw [show Vocab.words (VocabWrap.simple v) = ws from this.1]
    exact this.2.2 i w
  | bucket v =>
    obtain ⟨e, ix, ws, m, M, bow, eow, h1, h2, h3, h4⟩ := h
    have := c22_subword _ _ _ _ _ _ v h2
    rw [show Vocab.words (VocabWrap.bucket v) = ws from this.1]
    exact this.2.2 i w
  | fastText v =>
    obtain ⟨b, ix, ws, m, M, bow, eow, h1, h0, h2, h3, h4⟩ := h
    have := c22_subword _ _ _ _ _ _ v h2
    rw [show Vocab.words (VocabWrap.fastText v) = ws from this.1]
    exact this.2.2 i w
  | explicit v =>
    obtain ⟨ix, ws, m, M, bow, eow, h1, h2, h3, h4⟩ := h
    have := c22_subword _ _ _ _ _ _ v h2
    rw [show Vocab.words (VocabWrap.explicit v) = ws from this.1]
    exact this.2.2 i w
  | floret v =>
    obtain ⟨nb, nh, seed, ix, ws, m, M, bow, eow, h1, h2, h3, h4⟩ := h
    have := c22_subword _ _ _ _ _ _ v h2
    rw [show Vocab.words (VocabWrap.floret v) = ws from this.1]
    exact this.2.2 i w

omit [Scalar F32] in
theorem idx_asRead {v : VocabWrap} (h : UsableVocab v) {w : Str} (hw : w ∈ Vocab.words v) :
    Vocab.idx (asRead v) w = Vocab.idx v w := by
  obtain ⟨i, hi⟩ := List.mem_iff_getElem?.mp hw
  rw [(idx_of_word h i w).mpr hi, (idx_of_word (usable_asRead h) i w).mpr ((words_asRead v).1 ▸ hi)]

/-! ## Single steps -/

/-- Specification: the same answers for the words in `ok`. -/
def SameWords (ok : Str → Prop) (e e' : Wrapped T) : Prop :=
  ∀ w, ok w → Vocab.idx e'.vocab w = Vocab.idx e.vocab w ∧ e'.embedding w = e.embedding w ∧
    e'.embeddingWithNorm w = e.embeddingWithNorm w

/-- Specification: the same words, norms and number of components. -/
def SameFrame (e e' : Wrapped T) : Prop :=
  Vocab.words e'.vocab = Vocab.words e.vocab ∧ e'.norms = e.norms ∧ e'.dims = e.dims

theorem sameWords_of {e e' : Wrapped T} {ok : Str → Prop} (hi : ∀ w, ok w → Vocab.idx e'.vocab w = Vocab.idx e.vocab w)
    (hr : SameRows e'.storage e.storage) (hn : e'.norms = e.norms) : SameWords ok e e' := by
  intro w hw
  have hi := hi w hw
  refine ⟨hi, ?_, ?_⟩
  · unfold Embeddings.embedding
    rw [hi]
    simp only [hr.2.1, hr.2.2]
  · unfold Embeddings.embeddingWithNorm Embeddings.normAt
    rw [hi, hn]
    simp only [hr.2.1, hr.2.2]

variable [Toml T]

/-- What a file of `e` contains. -/
theorem file_step {e : Wrapped T} (hs : Sound e) (hf : FitsFormat e) (pre : Bytes) :
    ∃ a, Loaded e.storage a ∧ (e.write pre.length).status = .ok () ∧
      (read (pre ++ (e.write pre.length).bytes) pre.length : Res (Wrapped T)) = .ok ⟨e.metadata, a, asRead e.vocab, e.norms⟩ := by
  obtain ⟨a, ha⟩ := hs.storage
  have hu := ha.same
  have hst : Storable (⟨e.metadata, a, asRead e.vocab, e.norms⟩ : Wrapped T) :=
    ⟨fun m hm => c14_metadata m (hf.metadata m hm).1 (hf.metadata m hm).2,
      (storable_asRead hs.vocab hs.noWords hf.words hf.vocab).roundTrips, ha.roundTrips hf,
      fun n hn => c13_norms n (hf.norms n hn)⟩
  have hw : (⟨e.metadata, a, asRead e.vocab, e.norms⟩ : Wrapped T).write = e.write := by
    have h1 : (writeChunk (asRead e.vocab) : Nat → W) = writeChunk e.vocab := funext fun o => (write_asRead _ o).1
    have h2 : (writeChunk a : Nat → W) = writeChunk e.storage := funext fun o => (hu.write o).symm
    unfold Embeddings.write Embeddings.chunkIds
    simp only [h1, h2, (write_asRead e.vocab 0).2, ← hu.id]
  have := c15_round_trip _ hst pre [] (fun _ => by decide)
  rw [hw, List.append_nil] at this
  exact ⟨a, ha, this⟩

theorem mapped_step {e : Wrapped T} (hs : Sound e) (hf : FitsFormat e) (pre : Bytes) :
    ∃ a s, Loaded e.storage a ∧ Loaded s a ∧
      (mmap mmapStorageWrap (pre ++ (e.write pre.length).bytes) pre.length : Res (Wrapped T)) =
        .ok ⟨e.metadata, s, asRead e.vocab, e.norms⟩ := by
  obtain ⟨a, ha, _, hr⟩ := file_step hs hf pre
  unfold Embeddings.read Embeddings.readWith at hr
  obtain ⟨⟨⟨m, v⟩, p⟩, hh, h1⟩ := Res.bind_eq_ok.mp hr
  dsimp only at h1
  obtain ⟨⟨s, p2⟩, hs2, h2⟩ := Res.bind_eq_ok.mp h1
  dsimp only at h2
  obtain ⟨n, hn, h3⟩ := Res.bind_eq_ok.mp h2
  simp only [Res.pure_eq, Res.ok.injEq, Embeddings.mk.injEq] at h3
  obtain ⟨rfl, rfl, rfl, h3⟩ := h3
  obtain ⟨s', hs', _, _⟩ := c21_wrap _ p p2 s hs2
  refine ⟨s, s', ha, ⟨ha.1, .inr ⟨_, p, p2, hs2, hs'⟩⟩, ?_⟩
  unfold Embeddings.mmap Embeddings.readWith
  rw [hh]; simp only [Res.ok_bind]
  rw [hs']; simp only [Res.ok_bind]
  rw [hn]; simp only [Res.ok_bind, Res.pure_eq, h3]

omit [Toml T] in
theorem reread {e : Wrapped T} (hs : Sound e) {a s : StorageWrap} (ha : Loaded e.storage a) (hl : Loaded s a) :
    Sound (⟨e.metadata, s, asRead e.vocab, e.norms⟩ : Wrapped T) ∧ SameFrame e ⟨e.metadata, s, asRead e.vocab, e.norms⟩ ∧
    SameWords (fun w => w ∈ Vocab.words e.vocab ∨ asRead e.vocab = e.vocab) e ⟨e.metadata, s, asRead e.vocab, e.norms⟩ := by
  have hrow : SameRows s e.storage :=
    ⟨hl.same.rows.1.trans ha.same.rows.1.symm, fun i => (hl.same.rows.2.1 i).trans (ha.same.rows.2.1 i).symm,
      fun i => (hl.same.rows.2.2 i).trans (ha.same.rows.2.2 i).symm⟩
  obtain ⟨w1, w2, w3⟩ := words_asRead e.vocab
  refine ⟨⟨usable_asRead hs.vocab, ?_, ⟨a, hl⟩, ?_, ?_⟩, ⟨w1, rfl, congrArg Prod.snd hrow.1⟩, sameWords_of ?_ hrow rfl⟩
  · intro v hv
    have hv : asRead e.vocab = .floret v := hv
    cases hev : e.vocab <;> rw [hev] at hv <;> cases hv
    exact hs.noWords v hev
  · show Vocab.vocabLen (asRead e.vocab) = .ok (shape s).1
    rw [w3, hs.sizes.1, hrow.1]
  · intro n hn
    show _ = Vocab.wordsLen (asRead e.vocab)
    rw [w2]; exact hs.sizes.2 n hn
  · rintro w (hw | hw)
    · exact idx_asRead hs.vocab hw
    · show Vocab.idx (asRead e.vocab) w = _
      rw [hw]

omit [Toml T] in
theorem explicit_step {I : Type} [BucketIndexer I] {e : Embeddings T (SubwordVocab I) StorageWrap F32} {ws : List Str} {m M : Nat}
    {ix : I} {bow eow : Str} (hv : SubwordVocab.newWithBoundaries ws m M ix bow eow = .ok e.vocab) {h : Str → Nat}
    (hi : SingleIndex ix m M h) (hm : 1 ≤ m) (hM : m ≤ M) (hr : Vocab.vocabLen e.vocab = .ok (shape e.storage).1)
    (hn : ∀ n ∈ e.norms, n.inner.length = Vocab.wordsLen e.vocab) {a : StorageWrap} (ha : Loaded e.storage a)
    {order : List (Str × Nat) → List (Str × Nat)} (hord : ∀ l, (order l).Perm l)
    {order2 : List (Nat × Nat) → List (Nat × Nat)} (hord2 : ∀ l, (order2 l).Perm l)
    {e' : Embeddings T ExplicitSubwordVocab StorageWrap F32} (he : e.toExplicit order order2 = .ok e') :
    Sound (e'.into VocabWrap.explicit id) ∧ Vocab.words e'.vocab = Vocab.words e.vocab ∧ e'.norms = e.norms ∧ e'.dims = e.dims ∧
      ∀ w ∈ Vocab.words e.vocab, Vocab.idx e'.vocab w = Vocab.idx e.vocab w ∧ e'.embedding w = e.embedding w ∧
        e'.embeddingWithNorm w = e.embeddingWithNorm w := by
  have hk := c32_known (S' := StorageWrap) e ws m M ix bow eow hv h hi hr (c47_clone_wrap e.storage) ha.mapsTotal order hord
    order2 hord2
  rw [he] at hk
  obtain ⟨_, hk, k2, k3, k4, k5⟩ := hk
  cases hk
  rw [← (c22_subword _ _ _ _ _ _ _ hv).1] at k5
  refine ⟨?_, k2, k3, k4, k5⟩
  clear k2 k3 k4 k5
  obtain ⟨e1, ix', o2n, h1, h2, h3, h4, ⟨t, h5⟩, h6⟩ := toExplicit_eq (S' := StorageWrap) e hv hi hr (c47_clone_wrap e.storage)
    ha.mapsTotal order hord order2 hord2
  rw [he] at h1
  cases h1
  have hc := he
  unfold Embeddings.toExplicit at hc
  obtain ⟨⟨ev, o⟩, _, hc⟩ := Res.bind_eq_ok.mp hc
  dsimp only at hc
  obtain ⟨vl, _, hc⟩ := Res.bind_eq_ok.mp hc
  obtain ⟨mp, _, hc⟩ := Res.bind_eq_ok.mp hc
  obtain ⟨s, hcl, hc⟩ := Res.bind_eq_ok.mp hc
  obtain ⟨hlen, rfl⟩ := Embeddings.newWithMaybeNorms_eq_ok.mp hc
  rw [ha.same.clone] at hcl
  refine ⟨⟨ix', ws, m, M, _, _, .inr ⟨t, o2n, h5⟩, h4, hm, hM⟩, ?_, ⟨s, ha.1.clone hcl, .inl rfl⟩, hlen, ?_⟩
  · intro v hv
    cases hv
  intro n hn'
  have hn' : n ∈ e.norms := hn'
  rw [hn n hn', (c22_subword _ _ _ _ _ _ _ hv).2.1]
  exact (c22_subword _ _ _ _ _ _ _ h4).2.1.symm

omit [Toml T] in
theorem quantize_step {S : Type} [Storage S F32] [StorageView S F32] {t : PqTrainer F32} (ht : TrainerContract t)
    {k bits it att : Nat} {normalize : Bool} {s : S} (hv : ViewIsRows s) {q : QuantizedArray F32}
    (hq : quantizeStorage t k bits it att normalize s = .ok q) : InMemory (.quantized q) ∧ shape q = shape s := by
  have h := c57_ok t ht k bits it att normalize s hv q hq
  refine ⟨⟨h.2.2.2.2.2.2.2.1, ?_⟩, h.2.2.1⟩
  obtain ⟨hb, m, hm, hq, hc, hn⟩ := quantizeStorage_eq_ok.mp hq
  obtain ⟨hdim, hrect, _⟩ := hv m hm
  obtain ⟨i1, i2, i3, i4⟩ := quantizeInput_dim normalize m hrect
  have i3' : ∀ r ∈ (quantizeInput normalize m).1.rows, r.length = (quantizeInput normalize m).1.cols := by
    rw [i1]; exact i3
  obtain ⟨hwf, hk, hcent, hrec⟩ := ht.trained _ _ _ _ _ _ i3' hq
  have hle : q.quantizer.nCentroids ≤ 256 := by
    rw [hcent]; exact Nat.pow_le_pow_right (n := 2) (by decide) h.1
  exact (ht.encoded _ _ _ hwf hle hrec i3' hc).2.2.2

omit [Toml T] in
theorem quantized_sound {S : Type} [Storage S F32] [StorageView S F32] {e : Wrapped T} (hs : Sound e) {t : PqTrainer F32}
    (ht : TrainerContract t) {k bits it att : Nat} {normalize : Bool} {s : S} (hv : ViewIsRows s) (hsh : shape e.storage = shape s)
    {e' : Embeddings T VocabWrap (QuantizedArray F32) F32}
    (hq : Embeddings.quantize t k bits it att normalize ⟨e.metadata, s, e.vocab, e.norms⟩ = .ok e') :
    Sound (e'.into id StorageWrap.quantized) ∧ SameFrame e (e'.into id StorageWrap.quantized) := by
  unfold Embeddings.quantize at hq
  obtain ⟨q, hq', h⟩ := Res.bind_eq_ok.mp hq
  cases h
  obtain ⟨h1, h2⟩ := quantize_step ht hv hq'
  have h3 : shape (StorageWrap.quantized q) = shape e.storage := h2.trans hsh.symm
  refine ⟨⟨hs.vocab, hs.noWords, ⟨_, h1, .inl rfl⟩, ?_, hs.sizes.2⟩, rfl, rfl, congrArg Prod.snd h3⟩
  show Vocab.vocabLen e.vocab = .ok (shape (StorageWrap.quantized q)).1
  rw [h3]; exact hs.sizes.1

omit [Toml T] in
theorem viewIsRows_of {e : Wrapped T} (hs : Sound e) {a : NdArray F32} (h : e.storage = .ndArray a) : ViewIsRows a := by
  obtain ⟨b, hb, h1 | ⟨d, pos, p, hr, hm⟩⟩ := hs.storage
  · rw [← h1, h] at hb
    exact c57_view_array a hb
  · rw [h] at hm
    exfalso
    have hr : readStorageWrap d pos = .ok (b, p) := hr
    cases hu : u32At d pos with
    | none => rw [(c16_storage.2.2.1 d pos).1 hu] at hr; cases hr
    | some c =>
      by_cases h2 : c = 2
      · subst h2
        rw [c16_storage.2.2.2.1 d pos hu] at hm
        obtain ⟨_, _, e⟩ := map_eq_ok.mp hm
        cases e
      · by_cases h4 : c = 4
        · subst h4
          rw [c16_storage.2.2.2.2.1 d pos hu] at hm
          obtain ⟨_, _, e⟩ := map_eq_ok.mp hm
          cases e
        · rw [(c16_storage.2.2.1 d pos).2 c hu (by simp [h2, h4])] at hr; cases hr

omit [Toml T] in
theorem converted {e : Wrapped T} (hs : Sound e) {order : List (Str × Nat) → List (Str × Nat)} (hord : ∀ l, (order l).Perm l)
    {order2 : List (Nat × Nat) → List (Nat × Nat)} (hord2 : ∀ l, (order2 l).Perm l)
    {e' : Embeddings T ExplicitSubwordVocab StorageWrap F32} (he : e.tryToExplicit order order2 = .ok e') :
    Sound (e'.into VocabWrap.explicit id) ∧ SameFrame e (e'.into VocabWrap.explicit id) ∧
      SameWords (· ∈ Vocab.words e.vocab) e (e'.into VocabWrap.explicit id) := by
  obtain ⟨md, st, vo, ns⟩ := e
  obtain ⟨a, ha⟩ := hs.storage
  cases vo with
  | simple v => cases he
  | explicit v => cases he
  | floret v => cases he
  | bucket v =>
    obtain ⟨b, ix, ws, m, M, bow, eow, h1, h2, h3, h4⟩ := hs.vocab
    obtain ⟨k1, k2, k3, k4, k5⟩ := explicit_step (e := ⟨md, st, v, ns⟩) h2 (HashIndexer.singleIndex h1 h3 h4) h3 h4 hs.sizes.1
      hs.sizes.2 ha hord hord2 he
    exact ⟨k1, ⟨k2, k3, k4⟩, k5⟩
  | fastText v =>
    obtain ⟨b, ix, ws, m, M, bow, eow, h1, h0, h2, h3, h4⟩ := hs.vocab
    obtain ⟨k1, k2, k3, k4, k5⟩ := explicit_step (e := ⟨md, st, v, ns⟩) h2 (FastTextIndexer.singleIndex h1 h0 h3 h4) h3 h4 hs.sizes.1
      hs.sizes.2 ha hord hord2 he
    exact ⟨k1, ⟨k2, k3, k4⟩, k5⟩

/-! ## C114 -/

omit [Toml T] in
/-- **C114** (start). What the constructor makes of a usable vocabulary and a usable storage is usable. -/
theorem c114_new (md : Option (Metadata T)) (v : VocabWrap) (s a : StorageWrap) (n : NdNorms F32) (e : Wrapped T)
    (hv : UsableVocab v) (hw : ∀ u, v = .floret u → u.words = []) (hs : Loaded s a) (he : Embeddings.new md v s n = .ok e) :
    Sound e := by
  unfold Embeddings.new at he
  obtain ⟨_, h1, he⟩ := Res.bind_eq_ok.mp he
  obtain ⟨h2, rfl⟩ := newWithMaybeNorms_eq_ok.mp he
  refine ⟨hv, hw, ⟨a, hs⟩, h2, ?_⟩
  intro m hm
  cases hm
  unfold Res.assert at h1
  split at h1
  · rename_i h; simp at h; exact h.symm
  · cases h1

/-- **C114** (any history). After any sequence of operations usable embeddings are usable; words, norms and number of components are
those of the beginning. -/
theorem c114_history {q c : Bool} {e e' : Wrapped T} (h : History q c e e') (hs : Sound e) : Sound e' ∧ SameFrame e e' := by
  induction h with
  | none => exact ⟨hs, rfl, rfl, rfl⟩
  | metadata m _ ih =>
    obtain ⟨i1, i2⟩ := ih
    exact ⟨⟨i1.vocab, i1.noWords, i1.storage, i1.sizes⟩, i2⟩
  | file pre _ hf hr ih =>
    obtain ⟨i1, i2⟩ := ih
    obtain ⟨a, ha, _, h2⟩ := file_step i1 hf pre
    rw [hr] at h2
    cases h2
    obtain ⟨j1, j2, _⟩ := reread i1 ha ⟨ha.1, .inl rfl⟩
    exact ⟨j1, j2.1.trans i2.1, j2.2.1.trans i2.2.1, j2.2.2.trans i2.2.2⟩
  | mapped pre _ hf hr ih =>
    obtain ⟨i1, i2⟩ := ih
    obtain ⟨a, s, ha, hl, h2⟩ := mapped_step i1 hf pre
    rw [hr] at h2
    cases h2
    obtain ⟨j1, j2, _⟩ := reread i1 ha hl
    exact ⟨j1, j2.1.trans i2.1, j2.2.1.trans i2.2.1, j2.2.2.trans i2.2.2⟩
  | explicit hc order hord order2 hord2 _ he ih =>
    obtain ⟨i1, i2⟩ := ih
    obtain ⟨j1, j2, _⟩ := converted i1 hord hord2 he
    exact ⟨j1, j2.1.trans i2.1, j2.2.1.trans i2.2.1, j2.2.2.trans i2.2.2⟩
  | quantizeArray hq t ht k bits it att normalize a _ hst he ih =>
    obtain ⟨i1, i2⟩ := ih
    obtain ⟨j1, j2⟩ := quantized_sound i1 ht (viewIsRows_of i1 hst) (by rw [hst]; rfl) he
    exact ⟨j1, j2.1.trans i2.1, j2.2.1.trans i2.2.1, j2.2.2.trans i2.2.2⟩
  | quantizeMapped hq t ht k bits it att normalize a _ hst he ih =>
    obtain ⟨i1, i2⟩ := ih
    obtain ⟨j1, j2⟩ := quantized_sound i1 ht (c57_view_mmap a) (by rw [hst]; rfl) he
    exact ⟨j1, j2.1.trans i2.1, j2.2.1.trans i2.2.1, j2.2.2.trans i2.2.2⟩

/-- **C114** (vectors). Without quantization, each word has the index, the vector and the norm of the beginning. -/
theorem c114_vectors {c : Bool} {e e' : Wrapped T} (h : History false c e e') (hs : Sound e) :
    SameWords (· ∈ Vocab.words e.vocab) e e' := by
  have trans : ∀ {a b d : Wrapped T} {p q : Str → Prop}, SameWords p a b → SameWords q b d → (∀ w, p w → q w) → SameWords p a d :=
    fun h1 h2 hpq w hw => ⟨(h2 w (hpq w hw)).1.trans (h1 w hw).1, (h2 w (hpq w hw)).2.1.trans (h1 w hw).2.1,
      (h2 w (hpq w hw)).2.2.trans (h1 w hw).2.2⟩
  induction h with
  | none => exact fun _ _ => ⟨rfl, rfl, rfl⟩
  | metadata m _ ih => exact ih
  | file pre h hf hr ih =>
    obtain ⟨i1, i2⟩ := c114_history h hs
    obtain ⟨a, ha, _, h2⟩ := file_step i1 hf pre
    rw [hr] at h2
    cases h2
    exact trans ih (reread i1 ha ⟨ha.1, .inl rfl⟩).2.2 fun w hw => .inl (i2.1 ▸ hw)
  | mapped pre h hf hr ih =>
    obtain ⟨i1, i2⟩ := c114_history h hs
    obtain ⟨a, s, ha, hl, h2⟩ := mapped_step i1 hf pre
    rw [hr] at h2
    cases h2
    exact trans ih (reread i1 ha hl).2.2 fun w hw => .inl (i2.1 ▸ hw)
  | explicit hc order hord order2 hord2 h he ih =>
    obtain ⟨i1, i2⟩ := c114_history h hs
    exact trans ih (converted i1 hord hord2 he).2.2 fun w hw => i2.1 ▸ hw
  | quantizeArray hq => cases hq
  | quantizeMapped hq => cases hq

/-- Specification: the markers of the vocabulary are `<` and `>`, if the format does not store them. -/
def StandardMarkers : VocabWrap → Prop
  | .simple _ => True
  | .bucket v => v.bow = ['<'] ∧ v.eow = ['>']
  | .fastText v => v.bow = ['<'] ∧ v.eow = ['>']
  | .explicit v => v.bow = ['<'] ∧ v.eow = ['>']
  | .floret _ => True

omit [Scalar F32] in
theorem asRead_of_standard {v : VocabWrap} (h : StandardMarkers v) : asRead v = v := by
  cases v with
  | simple v => rfl
  | floret v => rfl
  | bucket v => obtain ⟨a, b, c, d, e, f, g⟩ := v; obtain ⟨rfl, rfl⟩ := h; rfl
  | fastText v => obtain ⟨a, b, c, d, e, f, g⟩ := v; obtain ⟨rfl, rfl⟩ := h; rfl
  | explicit v => obtain ⟨a, b, c, d, e, f, g⟩ := v; obtain ⟨rfl, rfl⟩ := h; rfl

/-- **C114** (all words). Without quantization and conversion, and with the standard markers, the vocabulary is that of the beginning,
and each word, known or unknown, has the vector and the norm of the beginning. -/
theorem c114_all_words {e e' : Wrapped T} (h : History false false e e') (hs : Sound e) (hm : StandardMarkers e.vocab) :
    e'.vocab = e.vocab ∧ SameWords (fun _ => True) e e' := by
  have trans : ∀ {a b d : Wrapped T} {q : Str → Prop}, SameWords (fun _ => True) a b → SameWords q b d → (∀ w, q w) →
      SameWords (fun _ => True) a d :=
    fun h1 h2 hq w hw => ⟨(h2 w (hq w)).1.trans (h1 w hw).1, (h2 w (hq w)).2.1.trans (h1 w hw).2.1,
      (h2 w (hq w)).2.2.trans (h1 w hw).2.2⟩
  induction h with
  | none => exact ⟨rfl, fun _ _ => ⟨rfl, rfl, rfl⟩⟩
  | metadata m _ ih => exact ih
  | file pre h hf hr ih =>
    obtain ⟨i1, i2⟩ := c114_history h hs
    obtain ⟨a, ha, _, h2⟩ := file_step i1 hf pre
    rw [hr] at h2
    cases h2
    have hv := asRead_of_standard (ih.1 ▸ hm)
    exact ⟨hv.trans ih.1, trans ih.2 (reread i1 ha ⟨ha.1, .inl rfl⟩).2.2 fun w => .inr hv⟩
  | mapped pre h hf hr ih =>
    obtain ⟨i1, i2⟩ := c114_history h hs
    obtain ⟨a, s, ha, hl, h2⟩ := mapped_step i1 hf pre
    rw [hr] at h2
    cases h2
    have hv := asRead_of_standard (ih.1 ▸ hm)
    exact ⟨hv.trans ih.1, trans ih.2 (reread i1 ha hl).2.2 fun w => .inr hv⟩
  | explicit hc => cases hc
  | quantizeArray hq => cases hq
  | quantizeMapped hq => cases hq

omit [Toml T] in
/-- **C114** (no panic). Lookups of any word, known or not, in usable embeddings never panic. With one component this assumes that
floats are summed from the left (see C36). -/
theorem c114_lookups (e : Wrapped T) (hs : Sound e)
    (hsum : e.dims = 1 → ∀ xs : List F32, Scalar.sum xs = xs.foldl Scalar.add Scalar.zero) :
    (∀ w, ∃ r, e.embedding w = .ok r) ∧ (∀ w t, t.length = e.dims → ∃ r, e.embeddingInto w t = .ok r) ∧
    (∀ w, ∃ r, e.embeddingWithNorm w = .ok r) ∧
    ∀ order : List (Str × List Nat) → List (Str × List Nat), (∀ l, (order l).Perm l) →
      ∀ words, ∃ r, e.embeddingBatch order words = .ok r := by
  obtain ⟨a, ha⟩ := hs.storage
  exact c36_no_panic e hs.vocab.total hs.vocab.inside hs.sizes (c47_wrap _) ha.rows.1 ha.rows.2 hsum

/-- **C114** (every step is possible). Usable embeddings that fit the format can be written, read back and mapped; usable embeddings
with buckets can be converted. None of this fails or panics. -/
theorem c114_possible (e : Wrapped T) (hs : Sound e) (hf : FitsFormat e) (pre : Bytes)
    (order : List (Str × Nat) → List (Str × Nat)) (hord : ∀ l, (order l).Perm l)
    (order2 : List (Nat × Nat) → List (Nat × Nat)) (hord2 : ∀ l, (order2 l).Perm l) :
    (e.write pre.length).status = .ok () ∧
    (∃ e' : Wrapped T, read (pre ++ (e.write pre.length).bytes) pre.length = .ok e') ∧
    (∃ e' : Wrapped T, mmap mmapStorageWrap (pre ++ (e.write pre.length).bytes) pre.length = .ok e') ∧
    (((∃ v, e.vocab = .bucket v) ∨ ∃ v, e.vocab = .fastText v) →
      ∃ e' : Embeddings T ExplicitSubwordVocab StorageWrap F32, e.tryToExplicit order order2 = .ok e') := by
  obtain ⟨a, ha, h1, h2⟩ := file_step hs hf pre
  obtain ⟨_, s, _, _, h3⟩ := mapped_step hs hf pre
  refine ⟨h1, ⟨_, h2⟩, ⟨_, h3⟩, ?_⟩
  obtain ⟨md, st, vo, ns⟩ := e
  dsimp only
  rintro (⟨v, rfl⟩ | ⟨v, rfl⟩)
  · obtain ⟨b, ix, ws, m, M, bow, eow, k1, k2, k3, k4⟩ := hs.vocab
    obtain ⟨e', he, _⟩ := c32_known (S' := StorageWrap) (⟨md, st, v, ns⟩ : Embeddings T _ _ F32) ws m M ix bow eow k2 _
      (HashIndexer.singleIndex k1 k3 k4) hs.sizes.1 (c47_clone_wrap st) ha.mapsTotal order hord order2 hord2
    exact ⟨e', he⟩
  · obtain ⟨b, ix, ws, m, M, bow, eow, k1, k0, k2, k3, k4⟩ := hs.vocab
    obtain ⟨e', he, _⟩ := c32_known (S' := StorageWrap) (⟨md, st, v, ns⟩ : Embeddings T _ _ F32) ws m M ix bow eow k2 _
      (FastTextIndexer.singleIndex k1 k0 k3 k4) hs.sizes.1 (c47_clone_wrap st) ha.mapsTotal order hord order2 hord2
    exact ⟨e', he⟩

end

/-! ## Examples -/

section
attribute [local instance] exampleScalar exampleToml

theorem exampleLookup_sound : Sound exampleLookup :=
  ⟨exampleVocab_usable, (by intro v h; cases h), ⟨exampleStorage, exampleStorage_usable, .inl rfl⟩, rfl,
    by intro n h; cases h; rfl⟩

theorem exampleLookup_fits : FitsFormat exampleLookup :=
  ⟨(by intro m h; cases h), ⟨by decide, by decide⟩, ⟨by decide, by decide⟩,
    fun _ => ⟨exampleStorage_usable, by decide, by decide, by decide⟩, by intro n h; cases h; decide⟩

/-- A history: written and mapped, then converted. -/
example : ∃ e' : Wrapped Str, History false true exampleLookup e' ∧ e'.metadata = none ∧ (∃ v, e'.vocab = .explicit v) ∧
    e'.embedding ['a'] = .ok (some [1, 2]) := by
  have hp := c114_possible exampleLookup exampleLookup_sound exampleLookup_fits [] id (fun _ => .refl _) id (fun _ => .refl _)
  obtain ⟨_, _, ⟨e1, h1⟩, _⟩ := hp
  have hh : History false true exampleLookup e1 := .mapped [] (.none _) exampleLookup_fits h1
  obtain ⟨a, s, _, _, h2⟩ := mapped_step exampleLookup_sound exampleLookup_fits []
  have h3 := h1.symm.trans h2
  cases h3
  obtain ⟨s1, f1⟩ := c114_history hh exampleLookup_sound
  obtain ⟨a', ha'⟩ := s1.storage
  have hu := s1.vocab
  obtain ⟨b, ix, ws, m, M, bow, eow, k1, k2, k3, k4⟩ := hu
  obtain ⟨e2, he2, _⟩ := c32_known (S' := StorageWrap) (⟨exampleLookup.metadata, s, _, exampleLookup.norms⟩ : Embeddings Str _ _ F32)
    ws m M ix bow eow k2 _ (HashIndexer.singleIndex k1 k3 k4) s1.sizes.1 (c47_clone_wrap s) ha'.mapsTotal id (fun _ => .refl _) id
    (fun _ => .refl _)
  have hh2 : History false true exampleLookup (e2.into VocabWrap.explicit id) :=
    .explicit rfl id (fun _ => .refl _) id (fun _ => .refl _) hh he2
  refine ⟨_, hh2, ?_, ⟨_, rfl⟩, ?_⟩
  · obtain ⟨e3, _, _, h4, _, h5, _⟩ := toExplicit_eq (S' := StorageWrap)
      (⟨exampleLookup.metadata, s, _, exampleLookup.norms⟩ : Embeddings Str _ _ F32)
      k2 (HashIndexer.singleIndex k1 k3 k4) s1.sizes.1 (c47_clone_wrap s) ha'.mapsTotal id (fun _ => .refl _) id
      (fun _ => .refl _)
    rw [he2] at h4
    cases h4
    exact h5
  · rw [(c114_vectors hh2 exampleLookup_sound ['a'] (by decide)).2.1]
    decide

/-- `c114_all_words` applies to the example. -/
example : StandardMarkers exampleLookup.vocab := ⟨rfl, rfl⟩

end

end FF
