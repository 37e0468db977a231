import Verif.Props.FastText

/-!
# Writing fastText files
-/

namespace FF

open Rd

section
variable {T S F : Type} [Scalar F] [ScalarNat F] [Storage S F] [FloatBits F]

/-- What is written for a word: the stored row times its norm and, if the word has n-grams, times the number of
its n-grams plus one, minus the rows of the n-grams. -/
def TakenOut (v : FastTextSubwordVocab) (rows : List (List F)) (w : Str) (row : List F) (n : F) (out : List F) : Prop :=
  (v.subwordIndices w = .ok none ∧ out = row.map (Scalar.mul · n)) ∨
  ∃ (is : List Nat) (subs : List (List F)), v.subwordIndices w = .ok (some is) ∧
    is.map (rows[·]?) = subs.map some ∧ out = subs.foldl (List.zipWith Scalar.sub)
      ((row.map (Scalar.mul · n)).map (Scalar.mul · (ScalarNat.ofNat (is.length + 1))))

/-- The stored vectors of `e` are `rows`, its norms `ns`. -/
structure StoredRows {V : Type} (e : Embeddings T V S F) (cols : Nat) (rows : List (List F)) (ns : List F) (n : Nat) : Prop where
  shape : Storage.shape e.storage = (rows.length, cols)
  rect : ∀ r ∈ rows, r.length = cols
  embedding : ∀ (i : Nat) row, rows[i]? = some row → Storage.embedding e.storage i = .ok row
  len : ns.length = n
  norms : ∀ (i : Nat) x, ns[i]? = some x → e.normAt i = .ok x

omit [ScalarNat F] [FloatBits F] in
theorem StoredRows.mapM {V : Type} {e : Embeddings T V S F} {cols : Nat} {rows : List (List F)} {ns : List F} {n : Nat}
    (h : StoredRows e cols rows ns n) {is : List Nat} (his : ∀ j ∈ is, j < rows.length) :
    ∃ subs, is.mapM (Storage.embedding e.storage) = .ok subs ∧ is.map (rows[·]?) = subs.map some := by
  obtain ⟨subs, h1, h2⟩ := Mat.mapM_row (m := ⟨cols, rows⟩) his
  refine ⟨subs, ?_, h2⟩
  rw [← h1]
  apply Res.mapM_congr'
  intro j hj
  have hr := List.getElem?_eq_getElem (his j hj)
  rw [h.embedding _ _ hr]
  exact (Mat.row_eq_ok.mpr hr).symm

omit [FloatBits F] in
theorem ftWordRow_ok {e : Embeddings T FastTextSubwordVocab S F} {cols : Nat} {rows : List (List F)} {ns : List F} {n : Nat}
    (h : StoredRows e cols rows ns n) {w : Str} {row : List F} {x : F} {o : Option (List Nat)}
    (ho : e.vocab.subwordIndices w = .ok o) (hin : ∀ is, o = some is → ∀ j ∈ is, j < rows.length) :
    ∃ out, e.ftWordRow w row x = .ok out ∧ TakenOut e.vocab rows w row x out := by
  unfold Embeddings.ftWordRow
  cases o with
  | none =>
    simp only [ho, Res.ok_bind]
    exact ⟨_, rfl, .inl ⟨ho, rfl⟩⟩
  | some is =>
    obtain ⟨subs, h1, h2⟩ := h.mapM (hin is rfl)
    simp only [ho, Res.ok_bind, h1]
    exact ⟨_, rfl, .inr ⟨is, subs, ho, h2, rfl⟩⟩

omit [Scalar F] [ScalarNat F] [Storage S F] in
theorem writeFloats (u : List F) :
    (W.each (fun x => W.f32 (FloatBits.toBits x)) u).Good ∧
    (W.each (fun x => W.f32 (FloatBits.toBits x)) u).bytes = encodeF32s (u.map FloatBits.toBits) := by
  refine ⟨W.good_each fun _ _ => W.good_f32 _, ?_⟩
  rw [W.bytes_each fun _ _ => W.good_f32 _]
  simp only [W.bytes_f32, encodeF32s, List.flatMap_map]

theorem encodeF32s_append (a b : List F32) : encodeF32s (a ++ b) = encodeF32s a ++ encodeF32s b := by
  simp [encodeF32s]

/-- The head of a file written by the crate. -/
def writtenHead (nw nb cols m M : Nat) : FtHead :=
  { magic := 793712314, version := 12, dims := cols, windowSize := 0, epoch := 0, minCount := 0, neg := 0, wordNgrams := 1,
    loss := 1, model := 1, bucket := nb, minN := m, maxN := M, lrUpdateRate := 0, samplingThreshold := 0, size := nw,
    nWords := nw, nLabels := 0, nTokens := 0, prune := 2 ^ 64 - 1 }

/-- The file written by the crate. -/
def writtenFile (ws : List Str) (nb cols m M : Nat) (rows : List (List F)) : FtFile :=
  { head := writtenHead ws.length nb cols m M, entries := ws.map fun w => ⟨utf8 w, 0, 0⟩, flag := 0, cols := cols,
    rows := rows.map (List.map FloatBits.toBits) }

omit [Scalar F] [ScalarNat F] in
theorem writtenFile_vocabOk {ws : List Str} {nb cols m M : Nat} {rows : List (List F)} (lossy : Bool)
    (hw : ∀ w ∈ ws, '\x00' ∉ w) (hl : ws.length < 2 ^ 32) (hb : nb < 2 ^ 31) (hc : cols < 2 ^ 32) (hm : m < 2 ^ 32)
    (hM : M < 2 ^ 32) : (writtenFile ws nb cols m M rows).VocabOk lossy ws := by
  refine ⟨?_, ?_, by simp [writtenFile, writtenHead], ?_, ?_⟩
  · constructor <;> simp only [writtenFile, writtenHead] <;> omega
  · constructor <;> simp only [writtenFile, writtenHead] <;> omega
  · intro e he
    simp only [writtenFile, List.mem_map] at he
    obtain ⟨w, hww, rfl⟩ := he
    refine ⟨not_mem_utf8_of (by decide) fun c hc hz => hw w hww ?_, (by decide : 0 < 2 ^ 64), rfl⟩
    rwa [show c = '\x00' from Char.ext (UInt32.toNat_inj.mp hz)] at hc
  · simp only [writtenFile, List.map_map]
    apply List.map_congr_left
    intro w _
    exact decodeToken_utf8 lossy w

theorem each_zipIdx {α β : Type} (ws : List α) (out : List β) (f : α × Nat → W) (g : β → W) (hl : out.length = ws.length)
    (k : Nat) (h : ∀ (i : Nat) (w : α) (b : β), ws[i]? = some w → out[i]? = some b → f (w, k + i) = g b) :
    W.each f (ws.zipIdx k) = W.each g out := by
  induction ws generalizing k out with
  | nil =>
    cases out with
    | nil => rfl
    | cons b out => simp at hl
  | cons w ws ih =>
    cases out with
    | nil => simp at hl
    | cons b out =>
      simp only [List.zipIdx_cons, W.each]
      rw [show f (w, k) = g b from h 0 w b rfl rfl, ih out (by simpa using hl) (k + 1) fun i w' b' h1 h2 => by
        have := h (i + 1) w' b' (by simpa using h1) (by simpa using h2)
        rwa [show k + 1 + i = k + (i + 1) by omega]]

theorem each_range' {β : Type} (out : List β) (f : Nat → W) (g : β → W) (k : Nat)
    (h : ∀ (i : Nat) (b : β), out[i]? = some b → f (k + i) = g b) :
    W.each f (List.range' k out.length) = W.each g out := by
  induction out generalizing k with
  | nil => rfl
  | cons b out ih =>
    simp only [List.length_cons, List.range'_succ, W.each]
    rw [show f k = g b from h 0 b rfl, ih (k + 1) fun i b' h1 => by
      have := h (i + 1) b' (by simpa using h1)
      rwa [show k + 1 + i = k + (i + 1) by omega]]

/-- **C52** (bytes). The writer succeeds, and the file it writes has the written rows: for each word what `TakenOut`
says, then the bucket rows as they are. -/
theorem writeFastText_bytes {e : Embeddings T FastTextSubwordVocab S F} {nb : Nat} {ix : FastTextIndexer}
    (hix : FastTextIndexer.new nb = .ok ix) {ws : List Str} {m M : Nat} (hv : SubwordVocab.new ws m M ix = .ok e.vocab)
    (hd : ∀ w ∈ ws, FtSubwordsDefined nb m M w) {cols : Nat} {rows : List (List F)} {ns : List F}
    (hs : StoredRows e cols rows ns ws.length) (hrows : rows.length = ws.length + nb)
    (hw : ws.length < 2 ^ 32) (hc : cols < 2 ^ 32) :
    e.writeFastText.Good ∧ ∃ wrows : List (List F), wrows.length = ws.length ∧
      (∀ (i : Nat) (w : Str) (row out : List F) (x : F), ws[i]? = some w → rows[i]? = some row → ns[i]? = some x →
        wrows[i]? = some out → TakenOut e.vocab rows w row x out) ∧
      e.writeFastText.bytes = (writtenFile ws nb cols m M (wrows ++ rows.drop ws.length)).bytes := by
  obtain ⟨hnd, f1, f2, f3, f4, f5, f6, f7, -⟩ := ft_vocab_fields hix hv
  obtain ⟨hb, hix'⟩ := FastTextIndexer.new_eq_ok.mp hix
  -- the rows of the words
  have hex : ∀ i (hi : i < ws.length), ∃ out, (do
      let v ← Storage.embedding e.storage i
      let n ← e.normAt i
      e.ftWordRow ws[i] v n) = .ok out ∧ TakenOut e.vocab rows ws[i] (rows[i]'(by omega)) (ns[i]'(by have := hs.len; omega)) out := by
    intro i hi
    rw [hs.embedding i _ (List.getElem?_eq_getElem (by omega)), Res.ok_bind,
      hs.norms i _ (List.getElem?_eq_getElem (by rw [hs.len]; omega)), Res.ok_bind]
    obtain ⟨o, ho, hin⟩ := ft_subwords hix hv ws[i] (hd _ (List.getElem_mem hi))
    exact ftWordRow_ok hs ho fun is his j hj => by rw [hrows]; exact (hin is his j hj).2
  let g : Nat → List F := fun i => if hi : i < ws.length then (hex i hi).choose else []
  have hg : ∀ i (hi : i < ws.length), g i = (hex i hi).choose := fun i hi => by simp only [g, dif_pos hi]
  let wrows := (List.range ws.length).map g
  have hwr : ∀ i, i < ws.length → wrows[i]? = some (g i) := fun i hi => by simp [wrows, hi]
  have hbk : BucketIndexer.buckets e.vocab.indexer = nb := by
    rw [f4, hix']
    show (UInt32.ofNat nb).toNat = nb
    rw [UInt32.toNat_ofNat', Nat.mod_eq_of_lt (by omega)]
  have hcfg : e.ftConfig = .ok { FtConfig.new with bucket := nb, dims := cols, maxN := M, minN := m } := by
    unfold Embeddings.ftConfig
    rw [hbk, hs.shape, f5, f6, if_pos (by omega), if_pos hc]
  -- the three parts
  have hvoc : (Embeddings.writeFtVocab e.vocab).Good ∧ (Embeddings.writeFtVocab e.vocab).bytes =
      (writtenHead ws.length nb cols m M).vocabBytes ++ (ws.map fun w => (⟨utf8 w, 0, 0⟩ : FtEntry)).flatMap FtEntry.bytes := by
    unfold Embeddings.writeFtVocab
    rw [f2, if_pos hw, f1]
    have hgw : ∀ w ∈ ws, (Embeddings.writeFtWord w).Good := fun w _ => rfl
    have hge := W.good_each hgw
    have g0 : (W.u32 ws.length ++ W.u32 ws.length ++ W.u32 0 ++ W.u64 0 ++ W.u64 (2 ^ 64 - 1) : W).Good := rfl
    refine ⟨W.good_seq g0 hge, ?_⟩
    rw [W.bytes_seq g0, W.bytes_each hgw, List.flatMap_map]
    have h1 : (W.u32 ws.length ++ W.u32 ws.length ++ W.u32 0 ++ W.u64 0 ++ W.u64 (2 ^ 64 - 1) : W).bytes =
        (writtenHead ws.length nb cols m M).vocabBytes := by
      rw [W.bytes_seq (show (W.u32 ws.length ++ W.u32 ws.length ++ W.u32 0 ++ W.u64 0 : W).Good from rfl),
        W.bytes_seq (show (W.u32 ws.length ++ W.u32 ws.length ++ W.u32 0 : W).Good from rfl),
        W.bytes_seq (show (W.u32 ws.length ++ W.u32 ws.length : W).Good from rfl), W.bytes_seq (W.good_u32 _)]
      simp only [W.bytes_u32, W.bytes_u64, List.append_assoc]
      rfl
    have h2 : ∀ w : Str, (Embeddings.writeFtWord w).bytes = FtEntry.bytes ⟨utf8 w, 0, 0⟩ := by
      intro w
      unfold Embeddings.writeFtWord
      rw [W.bytes_seq (show (W.emit (utf8 w) ++ W.emit [0] ++ W.u64 0 : W).Good from rfl),
        W.bytes_seq (show (W.emit (utf8 w) ++ W.emit [0] : W).Good from rfl), W.bytes_seq (W.good_emit _)]
      simp only [W.bytes_emit, W.bytes_u64, FtEntry.bytes, List.append_assoc]
      rfl
    rw [h1]
    congr 2
    funext w
    exact h2 w
  have hwords : (W.each (fun p => W.ofRes (do
      let v ← Storage.embedding e.storage p.2
      let n ← e.normAt p.2
      e.ftWordRow p.1 v n) fun u => W.each (fun x => W.f32 (FloatBits.toBits x)) u)
    ws.zipIdx) = W.each (fun u => W.each (fun x => W.f32 (FloatBits.toBits x)) u) wrows := by
    apply each_zipIdx _ _ _ _ (by simp [wrows])
    intro i w b hi hb
    obtain ⟨hi', rfl⟩ := List.getElem?_eq_some_iff.mp hi
    rw [hwr i hi'] at hb
    cases hb
    simp only [Nat.zero_add]
    rw [hg i hi']
    generalize hch : (hex i hi').choose = b
    have := (hex i hi').choose_spec.1
    rw [hch] at this
    rw [this]
    rfl
  have hbuckets : (W.each (fun i => W.ofRes (Storage.embedding e.storage i)
      fun u => W.each (fun x => W.f32 (FloatBits.toBits x)) u) (List.range' ws.length nb)) =
      W.each (fun u => W.each (fun x => W.f32 (FloatBits.toBits x)) u) (rows.drop ws.length) := by
    rw [show nb = (rows.drop ws.length).length by simp [hrows]]
    apply each_range'
    intro i b hb
    rw [List.getElem?_drop] at hb
    rw [hs.embedding _ _ hb]
    rfl
  have hfl : ∀ l : List (List F), (W.each (fun u => W.each (fun x => W.f32 (FloatBits.toBits x)) u) l).Good ∧
      (W.each (fun u => W.each (fun x => W.f32 (FloatBits.toBits x)) u) l).bytes =
        encodeF32s (l.map (List.map FloatBits.toBits)).flatten := by
    intro l
    refine ⟨W.good_each fun u _ => (writeFloats u).1, ?_⟩
    rw [W.bytes_each fun u _ => (writeFloats u).1, encodeF32s_flatten, List.flatMap_map]
    congr 1
    funext u
    exact (writeFloats u).2
  have hemb : e.writeFtEmbeddings.Good ∧ e.writeFtEmbeddings.bytes =
      leBytes 8 rows.length ++ (leBytes 8 cols ++
        encodeF32s ((wrows ++ rows.drop ws.length).map (List.map FloatBits.toBits)).flatten) := by
    unfold Embeddings.writeFtEmbeddings
    rw [f1, hwords, f3, f2, hs.shape]
    rw [show ∀ f : Nat → W, W.ofRes (.ok (ws.length + nb)) f = f (ws.length + nb) from fun _ => rfl]
    rw [Nat.add_sub_cancel_left, hbuckets]
    have g1 : (W.u64 rows.length ++ W.u64 cols : W).Good := rfl
    refine ⟨W.good_seq (W.good_seq g1 (hfl _).1) (hfl _).1, ?_⟩
    rw [W.bytes_seq (W.good_seq g1 (hfl _).1), W.bytes_seq g1, (hfl _).2, (hfl _).2, W.bytes_seq (W.good_u64 _),
      List.map_append, List.flatten_append, encodeF32s_append]
    simp
  unfold Embeddings.writeFastText
  rw [hcfg]
  simp only [W.ofRes]
  have g1 : (W.u32 fastTextMagic ++ W.u32 fastTextVersion ++
      writeFtConfig { FtConfig.new with bucket := nb, dims := cols, maxN := M, minN := m } : W).Good := rfl
  have g2 := W.good_seq g1 hvoc.1
  have g3 := W.good_seq g2 (W.good_emit [0])
  refine ⟨W.good_seq g3 hemb.1, wrows, by simp [wrows], ?_, ?_⟩
  · intro i w row out x h1 h2 h3 h4
    obtain ⟨hi', rfl⟩ := List.getElem?_eq_some_iff.mp h1
    obtain ⟨_, rfl⟩ := List.getElem?_eq_some_iff.mp h2
    obtain ⟨_, rfl⟩ := List.getElem?_eq_some_iff.mp h3
    rw [hwr i hi'] at h4
    cases h4
    rw [hg i hi']
    exact (hex i hi').choose_spec.2
  · rw [W.bytes_seq g3, W.bytes_seq g2, W.bytes_seq g1, hvoc.2, hemb.2]
    have hlen : (wrows ++ rows.drop ws.length).length = rows.length := by simp [wrows, hrows]
    simp only [writtenFile, FtFile.bytes, FtFile.vocabBytes, FtFile.matrixBytes, FtHead.bytes, List.length_map, hlen]
    have hcb : (W.u32 fastTextMagic ++ W.u32 fastTextVersion ++
        writeFtConfig { FtConfig.new with bucket := nb, dims := cols, maxN := M, minN := m } : W).bytes =
        (writtenHead ws.length nb cols m M).magicBytes ++ (writtenHead ws.length nb cols m M).configBytes := by
      rw [W.bytes_seq (show (W.u32 fastTextMagic ++ W.u32 fastTextVersion : W).Good from rfl), W.bytes_seq (W.good_u32 _)]
      simp only [W.bytes_u32]
      congr 1
    rw [hcb, W.bytes_emit]
    simp only [List.append_assoc]
    rfl

end

end FF
