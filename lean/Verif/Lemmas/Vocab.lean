import Verif.Model.VocabIO
import Verif.Lemmas.Io
import Verif.Lemmas.NGrams

namespace FF

open Rd

/-! ## Index maps -/

theorem HMap.len_insert {K V : Type} [DecidableEq K] (m : HMap K V) (k : K) (v : V) :
    (m.insert k v).len = if k ∈ m.keys then m.len else m.len + 1 := by
  rw [len_eq_keys_length, keys_insert, len_eq_keys_length]
  split <;> simp

theorem HMap.mem_keys_insert {K V : Type} [DecidableEq K] (m : HMap K V) (k k' : K) (v : V) :
    k' ∈ (m.insert k v).keys ↔ k' = k ∨ k' ∈ m.keys := by
  rw [keys_insert]
  split
  · constructor
    · exact .inr
    · rintro (rfl | h)
      · assumption
      · exact h
  · simp [or_comm]

/-- The fold behind `indexMap`. -/
def foldIdx (m : HMap Str Nat) (l : List Str) (n : Nat) : HMap Str Nat :=
  (l.zipIdx n).foldl (fun m p => m.insert p.1 p.2) m

theorem foldIdx_cons (m : HMap Str Nat) (w : Str) (l : List Str) (n : Nat) :
    foldIdx m (w :: l) n = foldIdx (m.insert w n) l (n + 1) := by
  simp [foldIdx, List.zipIdx_cons]

theorem foldIdx_mem_keys (m : HMap Str Nat) (l : List Str) (n : Nat) (w : Str) :
    w ∈ (foldIdx m l n).keys ↔ w ∈ l ∨ w ∈ m.keys := by
  induction l generalizing m n with
  | nil => simp [foldIdx]
  | cons x l ih =>
    rw [foldIdx_cons, ih, HMap.mem_keys_insert, List.mem_cons]
    constructor
    · rintro (h | h | h) <;> simp [h]
    · rintro ((h | h) | h) <;> simp [h]

theorem foldIdx_nodup {m : HMap Str Nat} (h : m.keys.Nodup) (l : List Str) (n : Nat) :
    (foldIdx m l n).keys.Nodup := by
  induction l generalizing m n with
  | nil => simpa [foldIdx]
  | cons x l ih => rw [foldIdx_cons]; exact ih (HMap.nodup_keys_insert h _ _) _

theorem foldIdx_len_le (m : HMap Str Nat) (l : List Str) (n : Nat) :
    (foldIdx m l n).len ≤ m.len + l.length := by
  induction l generalizing m n with
  | nil => simp [foldIdx]
  | cons x l ih =>
    rw [foldIdx_cons]
    have := ih (m.insert x n) (n + 1)
    rw [HMap.len_insert] at this
    simp only [List.length_cons]
    split at this <;> omega

theorem foldIdx_len_iff (m : HMap Str Nat) (l : List Str) (n : Nat) :
    (foldIdx m l n).len = m.len + l.length ↔ l.Nodup ∧ ∀ w ∈ l, w ∉ m.keys := by
  induction l generalizing m n with
  | nil => simp [foldIdx]
  | cons x l ih =>
    rw [foldIdx_cons]
    have hle := foldIdx_len_le (m.insert x n) l (n + 1)
    have hih := ih (m.insert x n) (n + 1)
    rw [HMap.len_insert] at hle hih
    simp only [List.length_cons, List.nodup_cons, List.mem_cons, forall_eq_or_imp]
    by_cases hx : x ∈ m.keys
    · rw [if_pos hx] at hle
      constructor
      · intro h; omega
      · intro h; exact absurd hx h.2.1
    · rw [if_neg hx] at hih
      rw [show m.len + (l.length + 1) = m.len + 1 + l.length by omega, hih]
      constructor
      · rintro ⟨h1, h2⟩
        refine ⟨⟨fun hxl => ?_, h1⟩, hx, fun w hw hk => ?_⟩
        · exact h2 x hxl ((HMap.mem_keys_insert _ _ _ _).mpr (.inl rfl))
        · exact h2 w hw ((HMap.mem_keys_insert _ _ _ _).mpr (.inr hk))
      · rintro ⟨⟨h1, h2⟩, _, h3⟩
        refine ⟨h2, fun w hw hk => ?_⟩
        rcases (HMap.mem_keys_insert _ _ _ _).mp hk with rfl | hk
        · exact h1 hw
        · exact h3 w hw hk

theorem foldIdx_get {m : HMap Str Nat} {l : List Str} {n : Nat} (hn : l.Nodup)
    (hd : ∀ w ∈ l, w ∉ m.keys) (w : Str) (i : Nat) :
    (foldIdx m l n).get w = some i ↔ m.get w = some i ∨ ∃ j, l[j]? = some w ∧ i = n + j := by
  induction l generalizing m n with
  | nil => simp [foldIdx]
  | cons x l ih =>
    rw [foldIdx_cons]
    rw [List.nodup_cons] at hn
    have hx : x ∉ m.keys := hd x (by simp)
    rw [ih hn.2 (by
      intro w hw hk
      rcases (HMap.mem_keys_insert _ _ _ _).mp hk with rfl | hk
      · exact hn.1 hw
      · exact hd w (by simp [hw]) hk)]
    rw [HMap.get_insert]
    constructor
    · rintro (h | ⟨j, hj, rfl⟩)
      · split at h
        · rename_i he
          right; exact ⟨0, by simp [he], by simpa using h.symm⟩
        · exact .inl h
      · right; exact ⟨j + 1, by simpa using hj, by omega⟩
    · rintro (h | ⟨j, hj, rfl⟩)
      · left
        rw [if_neg]
        · exact h
        · rintro rfl
          rw [HMap.get_eq_none_iff.mpr hx] at h; simp at h
      · cases j with
        | zero => left; simp at hj; simp [hj]
        | succ j => right; exact ⟨j, by simpa using hj, by omega⟩

theorem indexMap_mem_keys (l : List Str) (w : Str) : w ∈ (indexMap l).keys ↔ w ∈ l := by
  have := foldIdx_mem_keys HMap.empty l 0 w
  simpa [foldIdx, indexMap] using this

theorem indexMap_nodup (l : List Str) : (indexMap l).keys.Nodup := by
  have := foldIdx_nodup (m := HMap.empty) (by simp) l 0
  simpa [foldIdx, indexMap] using this

theorem indexMap_len_iff (l : List Str) : (indexMap l).len = l.length ↔ l.Nodup := by
  have := foldIdx_len_iff HMap.empty l 0
  simpa [foldIdx, indexMap, HMap.len, HMap.empty, HMap.keys] using this

theorem indexMap_get {l : List Str} (hn : l.Nodup) (w : Str) (i : Nat) :
    (indexMap l).get w = some i ↔ l[i]? = some w := by
  have := foldIdx_get (m := HMap.empty) (n := 0) hn (by simp) w i
  simpa [foldIdx, indexMap] using this

theorem indexMap_get_none {l : List Str} (w : Str) : (indexMap l).get w = none ↔ w ∉ l := by
  rw [HMap.get_eq_none_iff, indexMap_mem_keys]

/-! ## Constructors -/

theorem SimpleVocab.new_eq_ok {ws : List Str} {v : SimpleVocab} :
    SimpleVocab.new ws = .ok v ↔ ws.Nodup ∧ v = ⟨indexMap ws, ws⟩ := by
  unfold SimpleVocab.new
  simp only [createIndices]
  by_cases h : ws.Nodup
  · have := (indexMap_len_iff ws).mpr h
    simp [Res.assert, this, h, eq_comm]
  · have : ¬ ws.length = (indexMap ws).len := fun e => h ((indexMap_len_iff ws).mp e.symm)
    simp [Res.assert, this, h]

theorem SimpleVocab.new_panic {ws : List Str} (h : ¬ ws.Nodup) : SimpleVocab.new ws = .panic := by
  have : ¬ ws.length = (indexMap ws).len := fun e => h ((indexMap_len_iff ws).mp e.symm)
  simp [SimpleVocab.new, createIndices, Res.assert, this]

theorem SubwordVocab.newWithBoundaries_eq_ok {I : Type} [Indexer I] {ws : List Str} {m M : Nat} {ix : I}
    {bow eow : Str} {v : SubwordVocab I} :
    SubwordVocab.newWithBoundaries ws m M ix bow eow = .ok v ↔
      ws.Nodup ∧ (∃ ub, Indexer.upperBound ix = .ok ub ∧ ws.length + ub ≤ usizeMax) ∧
      v = ⟨bow, eow, ix, indexMap ws, ws, m, M⟩ := by
  unfold SubwordVocab.newWithBoundaries
  simp only [createIndices]
  by_cases h : ws.Nodup
  · have hl := (indexMap_len_iff ws).mpr h
    cases hu : Indexer.upperBound ix with
    | ok ub =>
      by_cases hub : ws.length + ub ≤ usizeMax
      · simp [Res.assert, hl, h, hub, eq_comm]
      · simp [Res.assert, hl, h, hub]
    | err e => simp [Res.assert, hl]
    | panic => simp [Res.assert, hl]
  · have : ¬ ws.length = (indexMap ws).len := fun e => h ((indexMap_len_iff ws).mp e.symm)
    simp [Res.assert, this, h]

theorem SubwordVocab.newWithBoundaries_panic {I : Type} [Indexer I] {ws : List Str} {m M : Nat} {ix : I}
    {bow eow : Str} (h : ¬ ws.Nodup) :
    SubwordVocab.newWithBoundaries ws m M ix bow eow = .panic := by
  have : ¬ ws.length = (indexMap ws).len := fun e => h ((indexMap_len_iff ws).mp e.symm)
  simp [SubwordVocab.newWithBoundaries, createIndices, Res.assert, this]

/-! ## Strings -/

theorem readString_readsAt {off : Nat} {s : Str} (h : strLen s < 2 ^ 32) :
    ReadsAt readString off (leBytes 4 (strLen s) ++ utf8 s) s := by
  unfold readString
  refine ReadsAt.bind (ReadsAt.readU32 h) ?_
  refine ReadsAt.bind0 (ReadsAt.alloc (by unfold isizeMax; omega)) ?_
  have := ReadsAt.bind (ReadsAt.readExact (off + (leBytes 4 (strLen s)).length) (utf8 s))
    (f := fun bytes => lift (Res.ofOption .format (utf8Decode bytes))) (b₂ := []) (b := s)
    (by rw [utf8Decode_utf8]; exact ReadsAt.lift_ok _ _)
  simpa [strLen] using this

theorem readVocabItems_readsAt {off : Nat} {l : List Str} (h : ∀ s ∈ l, strLen s < 2 ^ 32)
    (hl : 24 * l.length ≤ isizeMax) :
    ReadsAt (readVocabItems l.length) off (l.flatMap fun s => leBytes 4 (strLen s) ++ utf8 s) l := by
  unfold readVocabItems
  refine ReadsAt.bind0 (ReadsAt.alloc hl) ?_
  exact ReadsAt.replicateM (enc := fun s => leBytes 4 (strLen s) ++ utf8 s) l off
    fun off s hs => readString_readsAt (h s hs)

@[simp] theorem writeString_good (s : Str) : (writeString s).Good := by simp [writeString]
@[simp] theorem writeString_bytes (s : Str) :
    (writeString s).bytes = leBytes 4 (strLen s) ++ utf8 s := by
  simp [writeString, W.bytes_seq]

@[simp] theorem writeVocabItems_good (l : List Str) : (writeVocabItems l).Good :=
  W.good_each fun _ _ => writeString_good _
@[simp] theorem writeVocabItems_bytes (l : List Str) :
    (writeVocabItems l).bytes = l.flatMap fun s => leBytes 4 (strLen s) ++ utf8 s := by
  unfold writeVocabItems
  rw [W.bytes_each fun _ _ => writeString_good _]; simp

theorem items_length (l : List Str) :
    (l.flatMap fun s => leBytes 4 (strLen s) ++ utf8 s).length = itemsLen l := by
  induction l with
  | nil => rfl
  | cons s l ih => simp [itemsLen, strLen] at *; omega

theorem readString_mono : Mono readString := by unfold readString; mono_tac
theorem readVocabItems_mono (n) : Mono (readVocabItems n) := by
  unfold readVocabItems; have := readString_mono; mono_tac

/-! ## Simple vocabulary chunks -/

theorem SimpleVocab.write_good (v : SimpleVocab) : v.write.Good := by simp [SimpleVocab.write]

theorem SimpleVocab.write_bytes (v : SimpleVocab) :
    v.write.bytes = leBytes 4 ChunkId.simpleVocab.code ++ (leBytes 8 (v.len - 12) ++
      (leBytes 8 v.words.length ++ v.words.flatMap fun s => leBytes 4 (strLen s) ++ utf8 s)) := by
  simp [SimpleVocab.write, W.bytes_seq]

theorem SimpleVocab.write_size (v : SimpleVocab) : v.write.size = v.len := by
  rw [W.size, write_bytes]
  simp only [List.length_append, leBytes_length, items_length, SimpleVocab.len]
  omega

/-- Reading and discarding a length field. -/
theorem readU64_any_readsAt (off v : Nat) : ReadsAt readU64 off (leBytes 8 v) (v % 2 ^ 64) := by
  have := ReadsAt.readExact off (leBytes 8 v)
  rw [leBytes_length] at this
  have := ReadsAt.map leVal this
  rwa [leVal_leBytes] at this

theorem SimpleVocab.read_readsAt {ws : List Str} {v : SimpleVocab} (hv : SimpleVocab.new ws = .ok v)
    (off : Nat) (h : ∀ s ∈ ws, strLen s < 2 ^ 32) (hl : 24 * ws.length ≤ isizeMax) :
    ReadsAt SimpleVocab.read off v.write.bytes v := by
  rw [SimpleVocab.write_bytes]
  have hv' := (SimpleVocab.new_eq_ok.mp hv).2
  have hw : v.words = ws := by rw [hv']
  rw [hw]
  unfold SimpleVocab.read
  refine ReadsAt.bind (ensureChunkType_readsAt (by simp)) ?_
  refine ReadsAt.bind (readU64_any_readsAt _ _) ?_
  refine ReadsAt.bind (ReadsAt.readU64 (by unfold isizeMax at hl; omega)) ?_
  have := ReadsAt.bind (readVocabItems_readsAt (off := off + (leBytes 4 ChunkId.simpleVocab.code).length +
    (leBytes 8 (v.len - 12)).length + (leBytes 8 ws.length).length) h hl)
    (f := fun words => lift (SimpleVocab.new words)) (b₂ := []) (b := v)
    (by rw [hv]; exact ReadsAt.lift_ok _ _)
  simpa using this

theorem SimpleVocab.read_mono : Mono SimpleVocab.read := by
  unfold SimpleVocab.read
  have := ensureChunkType_mono; have := readVocabItems_mono
  mono_tac
  all_goals first | apply ensureChunkType_mono | apply readVocabItems_mono

/-! ## Bucketed chunks -/

section
variable {I : Type} [BucketIndexer I]

theorem writeBucketed_good (v : SubwordVocab I) (id : ChunkId) : (writeBucketed v id).Good := by
  simp [writeBucketed]

theorem writeBucketed_bytes (v : SubwordVocab I) (id : ChunkId) :
    (writeBucketed v id).bytes = leBytes 4 id.code ++ (leBytes 8 (bucketedLen v - 12) ++
      (leBytes 8 v.words.length ++ (leBytes 4 v.minN ++ (leBytes 4 v.maxN ++
      (leBytes 4 (BucketIndexer.buckets v.indexer) ++
      v.words.flatMap fun s => leBytes 4 (strLen s) ++ utf8 s))))) := by
  simp [writeBucketed, W.bytes_seq]

theorem writeBucketed_size (v : SubwordVocab I) (id : ChunkId) :
    (writeBucketed v id).size = bucketedLen v := by
  rw [W.size, writeBucketed_bytes]
  simp only [List.length_append, leBytes_length, items_length, bucketedLen]
  omega

theorem readBucketed_readsAt {ws : List Str} {m M b : Nat} {ix : I} {v : SubwordVocab I} {id : ChunkId}
    (hid : id ≠ .header) (hix : BucketIndexer.newBuckets b = .ok ix)
    (hb : BucketIndexer.buckets ix = b)
    (hv : SubwordVocab.new ws m M ix = .ok v)
    (off : Nat) (h : ∀ s ∈ ws, strLen s < 2 ^ 32) (hl : 24 * ws.length ≤ isizeMax)
    (hm : m < 2 ^ 32) (hM : M < 2 ^ 32) (hb' : b < 2 ^ 32) :
    ReadsAt (readBucketed id) off (writeBucketed v id).bytes v := by
  have hv' := (SubwordVocab.newWithBoundaries_eq_ok.mp hv).2.2
  rw [writeBucketed_bytes]
  have e1 : v.words = ws := by rw [hv']
  have e2 : v.minN = m := by rw [hv']
  have e3 : v.maxN = M := by rw [hv']
  have e4 : v.indexer = ix := by rw [hv']
  rw [e1, e2, e3, e4, hb]
  unfold readBucketed
  refine ReadsAt.bind (ensureChunkType_readsAt hid) ?_
  refine ReadsAt.bind (readU64_any_readsAt _ _) ?_
  refine ReadsAt.bind (ReadsAt.readU64 (by unfold isizeMax at hl; omega)) ?_
  refine ReadsAt.bind (ReadsAt.readU32 hm) ?_
  refine ReadsAt.bind (ReadsAt.readU32 hM) ?_
  refine ReadsAt.bind (ReadsAt.readU32 hb') ?_
  rw [← List.append_nil (ws.flatMap _)]
  refine ReadsAt.bind (readVocabItems_readsAt h hl) ?_
  rw [hix]
  refine ReadsAt.bind0 (ReadsAt.lift_ok _ _) ?_
  rw [hv]
  exact ReadsAt.lift_ok _ _

theorem readBucketed_mono (id : ChunkId) : Mono (readBucketed id : Rd (SubwordVocab I)) := by
  unfold readBucketed
  mono_tac
  all_goals first | apply ensureChunkType_mono | apply readVocabItems_mono
end

/-! ## Floret chunks -/

theorem writeFloret_good (v : FloretSubwordVocab) : (writeFloret v).Good := by
  simp [writeFloret]

theorem writeFloret_bytes (v : FloretSubwordVocab) :
    (writeFloret v).bytes = leBytes 4 ChunkId.floretSubwordVocab.code ++ (leBytes 8 (floretLen v - 12) ++
      (leBytes 4 v.minN ++ (leBytes 4 v.maxN ++ (leBytes 8 v.indexer.nBuckets ++
      (leBytes 4 v.indexer.nHashes ++ (leBytes 4 v.indexer.seed.toNat ++
      ((leBytes 4 (strLen v.bow) ++ utf8 v.bow) ++ (leBytes 4 (strLen v.eow) ++ utf8 v.eow)))))))) := by
  simp [writeFloret, W.bytes_seq]

theorem writeFloret_size (v : FloretSubwordVocab) : (writeFloret v).size = floretLen v := by
  rw [W.size, writeFloret_bytes]
  simp only [List.length_append, leBytes_length, floretLen, strLen]
  omega

theorem FloretIndexer.new_eq_ok {nb nh : Nat} {seed : UInt32} {ix : FloretIndexer} :
    FloretIndexer.new nb nh seed = .ok ix ↔ (0 < nh ∧ nh ≤ 4) ∧ nb ≠ 0 ∧ ix = ⟨nb, seed, nh⟩ := by
  unfold FloretIndexer.new
  by_cases h : 0 < nh ∧ nh ≤ 4
  · by_cases h2 : nb = 0
    · simp [Res.assert, h2, h]
    · simp [Res.assert, h2, h, eq_comm]
  · simp [Res.assert, h]

theorem readFloret_readsAt {nb nh m M : Nat} {seed : UInt32} {ix : FloretIndexer} {bow eow : Str}
    {v : FloretSubwordVocab}
    (hix : FloretIndexer.new nb nh seed = .ok ix)
    (hv : SubwordVocab.newWithBoundaries [] m M ix bow eow = .ok v)
    (off : Nat) (h1 : strLen bow < 2 ^ 32) (h2 : strLen eow < 2 ^ 32)
    (hm : m < 2 ^ 32) (hM : M < 2 ^ 32) (hb : nb < 2 ^ 64) :
    ReadsAt readFloret off (writeFloret v).bytes v := by
  have hv' := (SubwordVocab.newWithBoundaries_eq_ok.mp hv).2.2
  obtain ⟨hh, hb0, hix'⟩ := FloretIndexer.new_eq_ok.mp hix
  rw [writeFloret_bytes]
  have e1 : v.bow = bow := by rw [hv']
  have e1' : v.eow = eow := by rw [hv']
  have e2 : v.minN = m := by rw [hv']
  have e3 : v.maxN = M := by rw [hv']
  have e4 : v.indexer = ⟨nb, seed, nh⟩ := by rw [hv', hix']
  rw [e1, e1', e2, e3, e4]
  unfold readFloret
  refine ReadsAt.bind (ensureChunkType_readsAt (by simp)) ?_
  refine ReadsAt.bind (readU64_any_readsAt _ _) ?_
  refine ReadsAt.bind (ReadsAt.readU32 hm) ?_
  refine ReadsAt.bind (ReadsAt.readU32 hM) ?_
  refine ReadsAt.bind (ReadsAt.readU64 hb) ?_
  refine ReadsAt.bind (ReadsAt.readU32 (by show nh < _; omega)) ?_
  rw [if_neg (by rw [Classical.not_not]; exact hh)]
  refine ReadsAt.bind (ReadsAt.readU32 seed.toNat_lt) ?_
  refine ReadsAt.bind (readString_readsAt h1) ?_
  rw [← List.append_nil (leBytes 4 (strLen eow) ++ utf8 eow)]
  refine ReadsAt.bind (readString_readsAt h2) ?_
  rw [UInt32.ofNat_toNat, hix]
  refine ReadsAt.bind0 (ReadsAt.lift_ok _ _) ?_
  rw [hv]
  exact ReadsAt.lift_ok _ _

theorem readFloret_mono : Mono readFloret := by
  unfold readFloret
  mono_tac
  all_goals first | apply ensureChunkType_mono | apply readString_mono

end FF
