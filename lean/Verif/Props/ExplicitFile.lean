import Verif.Props.Explicit
import Verif.Props.Convert

/-!
# Conversion to explicit n-grams: independence of hash map orders (C83), files of converted embeddings (C84)
-/

namespace FF

open Res

section
variable {T I S S' F : Type} [BucketIndexer I] [Storage S F] [Storage S' F] [CloneFromMapping S S'] [Scalar F]

omit [Scalar F] in
/-- The n-grams and the number of rows of the converted embeddings: the n-grams are those of the vocabulary words,
each once; there is one row for every word and one for every bucket in use (`is` is a list of these buckets). -/
theorem c83_ngrams (e : Embeddings T (SubwordVocab I) S F) (ws : List Str) (m M : Nat) (ix : I)
    (bow eow : Str) (hv : SubwordVocab.newWithBoundaries ws m M ix bow eow = .ok e.vocab) (h : Str → Nat)
    (hs : SingleIndex ix m M h) (hrows : Vocab.vocabLen e.vocab = .ok (shape e.storage).1)
    (hmr : MapsRows (T := S') e.storage) (hmt : MapsTotal (S' := S') e.storage)
    (order : List (Str × Nat) → List (Str × Nat)) (hord : ∀ l, (order l).Perm l)
    (order2 : List (Nat × Nat) → List (Nat × Nat)) (hord2 : ∀ l, (order2 l).Perm l) :
    ∃ e' : Embeddings T ExplicitSubwordVocab S' F, e.toExplicit order order2 = .ok e' ∧
      e'.metadata = none ∧ e'.vocab.indexer.ngrams.Nodup ∧
      (∀ g, g ∈ e'.vocab.indexer.ngrams ↔ ∃ w ∈ ws, g ∈ bracketedNGrams bow w eow m M) ∧
      ∀ is : List Nat, is.Nodup →
        (∀ i, i ∈ is ↔ ∃ w ∈ ws, ∃ g ∈ bracketedNGrams bow w eow m M, i = h g) →
        shape e'.storage = (ws.length + is.length, (shape e.storage).2) := by
  obtain ⟨e', ix', o2n, h1, hn, hmd, hev, ⟨t, ht⟩, hd, _, _, hno, hyes⟩ :=
    toExplicit_eq (S' := S') e hv hs hrows hmr hmt order hord order2 hord2
  have hix : e'.vocab.indexer = ix' := by
    obtain ⟨_, _, hv'⟩ := SubwordVocab.newWithBoundaries_eq_ok.mp hev
    rw [hv']
  obtain ⟨c1, c2, c3, c4, c5, c6, c7, c8⟩ := c30_renumbering _ _ _ ht
  have ht' := ht
  rw [newWithIndices_eq] at ht'
  split at ht'
  case isFalse => cases ht'
  rename_i hnd
  have hdense : Dense o2n := by cases ht'; exact dense_empty.from _
  have hbound : ix'.bound = o2n.len := by cases ht'; rfl
  have hget : ∀ g, g ∈ ix'.ngrams ↔ ∃ i, ix'.index.get g = some i := by
    intro g
    rw [← (show ix'.index.keys = ix'.ngrams from ExplicitIndexer.Built.keys ⟨_, _, ht⟩)]
    cases hh : ix'.index.get g with
    | none => simpa using HMap.get_eq_none_iff.mp hh
    | some i =>
      simp only [Option.some.injEq, exists_eq', iff_true]
      apply Classical.byContradiction; intro hn
      rw [HMap.get_eq_none_iff.mpr hn] at hh; simp at hh
  have hmem : ∀ g, g ∈ ix'.ngrams ↔ g ∈ ws.flatMap (fun w => bracketedNGrams bow w eow m M) := by
    intro g
    rw [hget]
    constructor
    · rintro ⟨i, hi⟩
      apply Classical.byContradiction; intro hg
      rw [hno g hg] at hi; cases hi
    · intro hg
      obtain ⟨j, _, hj⟩ := hyes g hg
      exact ⟨j, hj⟩
  refine ⟨e', h1, hmd, by rw [hix, c1]; exact hnd, fun g => by rw [hix, hmem, List.mem_flatMap], ?_⟩
  intro is hisn hism
  have hkeys : ∀ i, i ∈ o2n.keys ↔ i ∈ is := by
    intro i
    have hk : i ∈ o2n.keys ↔ ∃ j, o2n.get i = some j := by
      cases hh : o2n.get i with
      | none => simpa using HMap.get_eq_none_iff.mp hh
      | some j =>
        simp only [Option.some.injEq, exists_eq', iff_true]
        apply Classical.byContradiction; intro hn
        rw [HMap.get_eq_none_iff.mpr hn] at hh; simp at hh
    rw [hk, hism]
    constructor
    · rintro ⟨j, hj⟩
      obtain ⟨⟨g, i'⟩, hgi, he⟩ := List.mem_map.mp ((c5 i).mp ⟨j, hj⟩)
      dsimp only at he
      subst he
      have hg : g ∈ ix'.ngrams := by rw [c1]; exact List.mem_map.mpr ⟨_, hgi, rfl⟩
      have hg' := (hmem g).mp hg
      obtain ⟨j1, hj1, hi1⟩ := hyes g hg'
      obtain ⟨j2, hj2, hi2⟩ := c2 g i' hgi
      simp only [Indexer.indexNgram, NGram.ofStr] at hi2
      rw [hi1] at hi2
      simp only [Res.ok.injEq, List.cons.injEq, and_true] at hi2
      obtain ⟨w, hw, hgw⟩ := List.mem_flatMap.mp hg'
      exact ⟨w, hw, g, hgw, hdense.inj hj2 (hi2 ▸ hj1)⟩
    · rintro ⟨w, hw, g, hg, rfl⟩
      obtain ⟨j, hj, _⟩ := hyes g (List.mem_flatMap.mpr ⟨w, hw, hg⟩)
      exact ⟨j, hj⟩
  have hlen : o2n.len = is.length := by
    rw [HMap.len_eq_keys_length]
    exact ((List.perm_ext_iff_of_nodup hdense.1 hisn).mpr hkeys).length_eq
  have hvl : Vocab.vocabLen e'.vocab = .ok (ws.length + o2n.len) := by
    obtain ⟨hnw, _, hv'⟩ := SubwordVocab.newWithBoundaries_eq_ok.mp hev
    have hl : (indexMap ws).len = ws.length := (indexMap_len_iff ws).mpr hnw
    rw [hv']
    show (Res.ok ix'.bound >>= fun b => Res.ok ((indexMap ws).len + b)) = _
    rw [hl, ← hbound]; rfl
  have hsh : Vocab.vocabLen e'.vocab = .ok (shape e'.storage).1 := by
    unfold Embeddings.toExplicit at h1
    obtain ⟨⟨ev, o⟩, _, h2⟩ := Res.bind_eq_ok.mp h1
    dsimp only at h2
    obtain ⟨vl, _, h3⟩ := Res.bind_eq_ok.mp h2
    obtain ⟨mp, _, h4⟩ := Res.bind_eq_ok.mp h3
    obtain ⟨s, _, h5⟩ := Res.bind_eq_ok.mp h4
    obtain ⟨h6, rfl⟩ := Embeddings.newWithMaybeNorms_eq_ok.mp h5
    exact h6
  rw [hvl] at hsh
  simp only [Res.ok.injEq] at hsh
  rw [← hlen, hsh, ← hd]

/-- Distinct values of a list of numbers (used to name the buckets in use). -/
theorem exists_distinct (l : List Nat) : ∃ is : List Nat, is.Nodup ∧ ∀ i, i ∈ is ↔ i ∈ l := by
  induction l with
  | nil => exact ⟨[], by simp, by simp⟩
  | cons x l ih =>
    obtain ⟨is, h1, h2⟩ := ih
    by_cases hx : x ∈ is
    · refine ⟨is, h1, fun i => ?_⟩
      rw [List.mem_cons, h2]
      constructor
      · exact .inr
      · rintro (rfl | h)
        · exact (h2 i).mp hx
        · exact h
    · exact ⟨x :: is, List.nodup_cons.mpr ⟨hx, h1⟩, fun i => by rw [List.mem_cons, List.mem_cons, h2]⟩

/-- C83: whatever the iteration orders of the hash maps, the conversion gives embeddings with the same words, norms,
n-grams (up to order), shape and chunk length of the vocabulary, and the same answer for every word. -/
theorem c83_order (e : Embeddings T (SubwordVocab I) S F) (ws : List Str) (m M : Nat) (ix : I)
    (bow eow : Str) (hv : SubwordVocab.newWithBoundaries ws m M ix bow eow = .ok e.vocab) (h : Str → Nat)
    (hm : 1 ≤ m) (hM : m ≤ M)
    (hs : SingleIndex ix m M h) (hrows : Vocab.vocabLen e.vocab = .ok (shape e.storage).1)
    (hmr : MapsRows (T := S') e.storage) (hmt : MapsTotal (S' := S') e.storage)
    (hb : BatchIsRows e.storage) (hb' : ∀ s' : S', BatchIsRows s')
    (order order' : List (Str × Nat) → List (Str × Nat)) (hord : ∀ l, (order l).Perm l) (hord' : ∀ l, (order' l).Perm l)
    (order2 order2' : List (Nat × Nat) → List (Nat × Nat)) (hord2 : ∀ l, (order2 l).Perm l)
    (hord2' : ∀ l, (order2' l).Perm l) :
    ∃ e1 e2 : Embeddings T ExplicitSubwordVocab S' F,
      e.toExplicit order order2 = .ok e1 ∧ e.toExplicit order' order2' = .ok e2 ∧
      e1.metadata = e2.metadata ∧ Vocab.words e1.vocab = Vocab.words e2.vocab ∧ e1.norms = e2.norms ∧
      e1.vocab.indexer.ngrams.Perm e2.vocab.indexer.ngrams ∧
      (∀ off, chunkLen e1.vocab off = chunkLen e2.vocab off) ∧
      shape e1.storage = shape e2.storage ∧
      ∀ w, e1.embedding w = e2.embedding w ∧ e1.embeddingWithNorm w = e2.embeddingWithNorm w := by
  obtain ⟨e1, a1, a2, a3, a4, a5⟩ := c83_ngrams (S' := S') e ws m M ix bow eow hv h hs hrows hmr hmt order hord order2 hord2
  obtain ⟨e2, b1, b2, b3, b4, b5⟩ :=
    c83_ngrams (S' := S') e ws m M ix bow eow hv h hs hrows hmr hmt order' hord' order2' hord2'
  obtain ⟨e1', a1', aw, an, _, ak⟩ := c32_known (S' := S') e ws m M ix bow eow hv h hs hrows hmr hmt order hord order2 hord2
  obtain ⟨e2', b1', bw, bn, _, bk⟩ :=
    c32_known (S' := S') e ws m M ix bow eow hv h hs hrows hmr hmt order' hord' order2' hord2'
  obtain ⟨e1'', a1'', au⟩ :=
    c72_unknown (S' := S') e ws m M ix bow eow hv h hm hM hs hrows hmr hmt hb hb' order hord order2 hord2
  obtain ⟨e2'', b1'', bu⟩ :=
    c72_unknown (S' := S') e ws m M ix bow eow hv h hm hM hs hrows hmr hmt hb hb' order' hord' order2' hord2'
  rw [a1] at a1' a1''; cases a1'; cases a1''
  rw [b1] at b1' b1''; cases b1'; cases b1''
  have hperm : e1.vocab.indexer.ngrams.Perm e2.vocab.indexer.ngrams :=
    (List.perm_ext_iff_of_nodup a3 b3).mpr fun g => by rw [a4, b4]
  have hww : Vocab.words e1.vocab = Vocab.words e2.vocab := by rw [aw, bw]
  refine ⟨e1, e2, a1, b1, by rw [a2, b2], hww, by rw [an, bn], hperm, ?_, ?_, fun w => ?_⟩
  · intro off
    show explicitLen _ = explicitLen _
    unfold explicitLen
    rw [show e1.vocab.words = e2.vocab.words from hww, (hperm.map _).sum_nat]
  · obtain ⟨is, i1, i2⟩ := exists_distinct (ws.flatMap fun w => (bracketedNGrams bow w eow m M).map h)
    have hi : ∀ i, i ∈ is ↔ ∃ w ∈ ws, ∃ g ∈ bracketedNGrams bow w eow m M, i = h g := by
      intro i
      rw [i2, List.mem_flatMap]
      simp only [List.mem_map, eq_comm]
    rw [a5 is i1 hi, b5 is i1 hi]
  · by_cases hw : w ∈ ws
    · rw [(ak w hw).2.1, (bk w hw).2.1, (ak w hw).2.2, (bk w hw).2.2]
      exact ⟨rfl, rfl⟩
    · have ha := au w hw _ rfl
      have hb := bu w hw _ rfl
      by_cases hg : sharedNGrams ws bow eow m M (bracketedNGrams ['<'] w ['>'] m M) = []
      · rw [(ha.1 hg).1, (ha.1 hg).2, (hb.1 hg).1, (hb.1 hg).2]; exact ⟨rfl, rfl⟩
      · rw [(ha.2 hg).1, (ha.2 hg).2, (hb.2 hg).1, (hb.2 hg).2]; exact ⟨rfl, rfl⟩

end

/-- C83 for the wrapper types. -/
theorem c83_wrap {T : Type} [Scalar F32] (e : Embeddings T VocabWrap StorageWrap F32)
    (hk : (∃ v, e.vocab = .bucket v) ∨ ∃ v, e.vocab = .fastText v) (hu : UsableVocab e.vocab)
    (hst : UsableStorage e.storage) (hrows : Vocab.vocabLen e.vocab = .ok (shape e.storage).1)
    (order order' : List (Str × Nat) → List (Str × Nat)) (hord : ∀ l, (order l).Perm l) (hord' : ∀ l, (order' l).Perm l)
    (order2 order2' : List (Nat × Nat) → List (Nat × Nat)) (hord2 : ∀ l, (order2 l).Perm l)
    (hord2' : ∀ l, (order2' l).Perm l) :
    ∃ e1 e2 : Embeddings T ExplicitSubwordVocab StorageWrap F32,
      e.tryToExplicit order order2 = .ok e1 ∧ e.tryToExplicit order' order2' = .ok e2 ∧
      e1.metadata = e2.metadata ∧ Vocab.words e1.vocab = Vocab.words e2.vocab ∧ e1.norms = e2.norms ∧
      e1.vocab.indexer.ngrams.Perm e2.vocab.indexer.ngrams ∧
      (∀ off, chunkLen e1.vocab off = chunkLen e2.vocab off) ∧
      shape e1.storage = shape e2.storage ∧
      ∀ w, e1.embedding w = e2.embedding w ∧ e1.embeddingWithNorm w = e2.embeddingWithNorm w := by
  obtain ⟨md, st, vo, ns⟩ := e
  dsimp only at hk hu hst hrows
  rcases hk with ⟨v, rfl⟩ | ⟨v, rfl⟩
  · obtain ⟨e, ix, ws, m, M, bow, eow, h1, h2, h3, h4⟩ := hu
    exact c83_order (S' := StorageWrap) (⟨md, st, v, ns⟩ : Embeddings T _ _ F32) ws m M ix bow eow h2 _ h3 h4
      (HashIndexer.singleIndex h1 h3 h4) hrows (c47_clone_wrap st) hst.mapsTotal (c47_wrap st) c47_wrap
      order order' hord hord' order2 order2' hord2 hord2'
  · obtain ⟨b, ix, ws, m, M, bow, eow, h1, h0, h2, h3, h4⟩ := hu
    exact c83_order (S' := StorageWrap) (⟨md, st, v, ns⟩ : Embeddings T _ _ F32) ws m M ix bow eow h2 _ h3 h4
      (FastTextIndexer.singleIndex h1 h0 h3 h4) hrows (c47_clone_wrap st) hst.mapsTotal (c47_wrap st) c47_wrap
      order order' hord hord' order2 order2' hord2 hord2'

attribute [local instance] exampleScalar in
/-- The hypotheses of `c83_wrap` (and, through it, of `c83_order` and `c83_ngrams`) hold for a concrete case. -/
example : (∃ v, exampleLookup.vocab = .bucket v) ∧ UsableVocab exampleLookup.vocab ∧
    UsableStorage exampleLookup.storage ∧
    Vocab.vocabLen exampleLookup.vocab = .ok (shape exampleLookup.storage).1 ∧
    (∀ l : List (Str × Nat), l.reverse.Perm l) ∧ ∀ l : List (Nat × Nat), l.reverse.Perm l :=
  ⟨⟨_, rfl⟩, exampleVocab_usable, exampleStorage_usable, rfl, List.reverse_perm, List.reverse_perm⟩

attribute [local instance] exampleScalar exampleToml in
/-- C83, what does depend on the iteration orders: the bytes of the written file. -/
theorem c83_bytes_false :
    ∃ (e1 e2 : Embeddings Str ExplicitSubwordVocab (NdArray F32) F32),
      exampleMarkers.toExplicit id id = .ok e1 ∧ exampleMarkers.toExplicit List.reverse id = .ok e2 ∧
      (e1.write 0).status = .ok () ∧ (e2.write 0).status = .ok () ∧ (e1.write 0).bytes ≠ (e2.write 0).bytes :=
  ⟨_, _, rfl, rfl, by decide +kernel, by decide +kernel, by decide +kernel⟩

/-! ## C84: files of converted embeddings -/

theorem mapM_length {α β : Type} {f : α → Res β} {l : List α} {r : List β} (h : l.mapM f = .ok r) :
    r.length = l.length := by
  have := congrArg List.length (mapM_eq_ok_iff.mp h)
  simpa using this.symm

theorem select_keeps {α : Type} {a b : Mat α} {mapping : List Nat} (h : a.select mapping = .ok b) :
    b.cols = a.cols ∧ b.nrows = mapping.length ∧ (a.WF → b.WF) := by
  rw [select_eq] at h
  obtain ⟨rs, hrs, rfl⟩ := map_eq_ok.mp h
  refine ⟨rfl, mapM_length hrs, fun hw r hr => ?_⟩
  have := List.mem_map_of_mem (f := Res.ok) hr
  rw [← mapM_eq_ok_iff.mp hrs] at this
  obtain ⟨i, _, hi⟩ := List.mem_map.mp this
  unfold Mat.row at hi
  cases hg : a.rows[i]? with
  | none => rw [hg] at hi; cases hi
  | some r' =>
    rw [hg] at hi; cases hi
    exact hw r (List.mem_of_getElem? hg)

/-- Picking rows keeps in-memory storages writable, if no more rows are picked than there were. -/
theorem StorableStorage.clone [Scalar F32] {s t : StorageWrap} {mapping : List Nat} (h : StorableStorage s)
    (hc : cloneFromMapping s mapping = .ok t) (hl : mapping.length ≤ (shape s).1) : StorableStorage t := by
  cases s with
  | ndArray a =>
    obtain ⟨t', h', rfl⟩ := map_eq_ok.mp hc
    obtain ⟨hw, h1, h2, h3⟩ := h
    have h' : (a.inner.select mapping).map NdArray.mk = .ok t' := h'
    obtain ⟨m', h'', rfl⟩ := map_eq_ok.mp h'
    obtain ⟨k1, k2, k3⟩ := select_keeps h''
    have hl : mapping.length ≤ a.inner.nrows := hl
    refine ⟨k3 hw, by rw [k1]; exact h1, by rw [k2]; omega, ?_⟩
    rw [k1, k2]
    have := Nat.mul_le_mul_right a.inner.cols hl
    omega
  | quantized a =>
    obtain ⟨t', h', rfl⟩ := map_eq_ok.mp hc
    obtain ⟨hw, hf⟩ := h
    have h' : (a.codes.select mapping >>= fun codes => selectNorms a.norms mapping >>= fun norms =>
      Res.ok (QuantizedArray.mk a.quantizer codes norms)) = .ok t' := h'
    obtain ⟨codes, hcs, h'⟩ := Res.bind_eq_ok.mp h'
    obtain ⟨norms, hns, h'⟩ := Res.bind_eq_ok.mp h'
    cases h'
    obtain ⟨k1, k2, k3⟩ := select_keeps hcs
    have hl : mapping.length ≤ a.codes.nrows := hl
    have hnl : (norms ≠ none → a.norms ≠ none) ∧ ∀ ns, norms = some ns → ns.length = mapping.length := by
      unfold selectNorms at hns
      cases hna : a.norms with
      | none =>
        rw [hna] at hns; cases hns
        exact ⟨id, by intro _ h; cases h⟩
      | some ns =>
        rw [hna] at hns
        obtain ⟨xs, hxs, rfl⟩ := map_eq_ok.mp hns
        exact ⟨by simp, by rintro _ ⟨⟩; exact mapM_length hxs⟩
    refine ⟨⟨hw.pq, k3 hw.codes, k1.trans hw.cols, fun ns h => by rw [k2]; exact hnl.2 ns h⟩,
      ⟨hf.qlen, hf.rlen, hf.cent, hf.proj, hf.quant, fun hne => ?_, ?_⟩⟩
    · have := hf.norms (hnl.1 hne)
      show 4 * codes.nrows ≤ _
      omega
    · have := hf.codes
      have := Nat.mul_le_mul_right a.quantizer.quantizedLen hl
      show codes.nrows * a.quantizer.quantizedLen ≤ _
      rw [k2]; omega
  | mmapArray a => exact h.elim
  | mmapQuantized a => exact h.elim

theorem StorableStorage.mapsTotal [Scalar F32] {s : StorageWrap} (h : StorableStorage s) :
    MapsTotal (S' := StorageWrap) s := by
  intro mapping hm
  cases s with
  | ndArray a =>
    obtain ⟨t, ht⟩ := NdArray.mapsTotal a mapping hm
    exact ⟨.ndArray t, map_eq_ok.mpr ⟨t, ht, rfl⟩⟩
  | quantized a =>
    obtain ⟨t, ht⟩ := QuantizedArray.mapsTotal (a := a) h.1 mapping hm
    exact ⟨.quantized t, map_eq_ok.mpr ⟨t, ht, rfl⟩⟩
  | mmapArray a => exact h.elim
  | mmapQuantized a => exact h.elim

theorem bracketedNGrams_strLen {bow w eow g : Str} {m M : Nat} (h : g ∈ bracketedNGrams bow w eow m M) :
    strLen g ≤ strLen bow + strLen w + strLen eow := by
  unfold bracketedNGrams NGramsSpec at h
  obtain ⟨⟨g', n⟩, hg, rfl⟩ := List.mem_map.mp h
  obtain ⟨i, _, hg⟩ := List.mem_flatMap.mp hg
  obtain ⟨n', _, hg⟩ := List.mem_map.mp hg
  obtain ⟨rfl, _⟩ := Prod.mk.inj hg
  have h1 := strLen_append ((bow ++ w ++ eow).take i) ((bow ++ w ++ eow).drop i)
  have h2 := strLen_append (((bow ++ w ++ eow).drop i).take n') (((bow ++ w ++ eow).drop i).drop n')
  rw [List.take_append_drop] at h1 h2
  rw [strLen_append, strLen_append] at h1
  show strLen (((bow ++ w ++ eow).drop i).take n') ≤ _
  omega

theorem length_le_of_nodup_subset {α : Type} [BEq α] [LawfulBEq α] {l l' : List α} (hn : l.Nodup) (h : l ⊆ l') :
    l.length ≤ l'.length := by
  induction l generalizing l' with
  | nil => simp
  | cons a l ih =>
    have ha : a ∈ l' := h (by simp)
    have hn' := List.nodup_cons.mp hn
    have := ih (l' := l'.erase a) hn'.2 (by
      intro x hx
      have hxa : x ≠ a := by rintro rfl; exact hn'.1 hx
      exact (List.mem_erase_of_ne hxa).mpr (h (by simp [hx])))
    rw [List.length_erase_of_mem ha] at this
    have := List.length_pos_of_mem ha
    rw [List.length_cons]; omega

theorem toExplicit_file {T I : Type} [Toml T] [BucketIndexer I] [Scalar F32] (e : Embeddings T (SubwordVocab I) StorageWrap F32)
    (ws : List Str) (m M : Nat) (ix : I) (bow eow : Str)
    (hv : SubwordVocab.newWithBoundaries ws m M ix bow eow = .ok e.vocab) (h : Str → Nat)
    (hs : SingleIndex ix m M h) (hrows : Vocab.vocabLen e.vocab = .ok (shape e.storage).1)
    (a : StorageWrap) (hst : StorableStorage a) (hsh : shape e.storage = shape a)
    (hcl : ∀ mapping, (cloneFromMapping e.storage mapping : Res StorageWrap) = cloneFromMapping a mapping) (hnw : 24 * ws.length ≤ isizeMax)
    (hwl : ∀ w ∈ ws, strLen bow + strLen w + strLen eow < 2 ^ 32)
    (hng : ∀ gs : List Str, gs.Nodup → (∀ g ∈ gs, ∃ w ∈ ws, g ∈ bracketedNGrams bow w eow m M) →
      32 * gs.length ≤ isizeMax)
    (hm : m < 2 ^ 32) (hM : M < 2 ^ 32) (hn : ∀ n ∈ e.norms, 4 * n.inner.length ≤ isizeMax)
    (order : List (Str × Nat) → List (Str × Nat)) (hord : ∀ l, (order l).Perm l)
    (order2 : List (Nat × Nat) → List (Nat × Nat)) (hord2 : ∀ l, (order2 l).Perm l) :
    ∃ e' : Embeddings T ExplicitSubwordVocab StorageWrap F32, e.toExplicit order order2 = .ok e' ∧
      (e'.write 0).status = .ok () ∧
      (Embeddings.read (e'.write 0).bytes 0 : Res (Embeddings T ExplicitSubwordVocab StorageWrap F32)) = .ok e' ∧
      (Embeddings.read (e'.write 0).bytes 0 : Res (Embeddings T VocabWrap StorageWrap F32)) =
        .ok ⟨none, e'.storage, .explicit e'.vocab, e'.norms⟩ ∧
      (∃ e'' : Embeddings T ExplicitSubwordVocab StorageWrap F32,
        Embeddings.mmap mmapStorageWrap (e'.write 0).bytes 0 = .ok e'' ∧
        e''.metadata = none ∧ e''.vocab = e'.vocab ∧ e''.norms = e.norms ∧ SameRows e''.storage e'.storage) ∧
      Vocab.words e'.vocab = ws ∧
      ∀ w ∈ ws, e'.embedding w = e.embedding w ∧ e'.embeddingWithNorm w = e.embeddingWithNorm w := by
  have hmr := c47_clone_wrap e.storage
  have hmt : MapsTotal (S' := StorageWrap) e.storage := fun mapping hm => by
    rw [hcl]; exact hst.mapsTotal mapping fun j hj => hsh ▸ hm j hj
  obtain ⟨e', h1, h2, h3, h4, h5⟩ := c83_ngrams (S' := StorageWrap) e ws m M ix bow eow hv h hs hrows hmr hmt order hord
    order2 hord2
  obtain ⟨e1, k1, k2, k3, k4, k5⟩ := c32_known (S' := StorageWrap) e ws m M ix bow eow hv h hs hrows hmr hmt order hord
    order2 hord2
  rw [h1] at k1; cases k1
  obtain ⟨e1, ix', o2n, k1, -, -, hev, ⟨t, ht⟩, -⟩ :=
    toExplicit_eq (S' := StorageWrap) e hv hs hrows hmr hmt order hord order2 hord2
  rw [h1] at k1; cases k1
  have hwords : Vocab.words e'.vocab = ws := (c22_subword _ _ _ _ _ _ _ hev).1
  have hix : e'.vocab.indexer = ix' := by
    obtain ⟨_, _, hv'⟩ := SubwordVocab.newWithBoundaries_eq_ok.mp hev
    rw [hv']
  rw [hix] at h3 h4
  -- the number of rows does not grow
  have hle : (shape e'.storage).1 ≤ (shape e.storage).1 := by
    obtain ⟨is, i1, i2⟩ := exists_distinct (ws.flatMap fun w => (bracketedNGrams bow w eow m M).map h)
    have hi : ∀ i, i ∈ is ↔ ∃ w ∈ ws, ∃ g ∈ bracketedNGrams bow w eow m M, i = h g := by
      intro i
      rw [i2, List.mem_flatMap]
      simp only [List.mem_map, eq_comm]
    rw [h5 is i1 hi]
    obtain ⟨hnd, ⟨ub, hub, _⟩, hv'⟩ := SubwordVocab.newWithBoundaries_eq_ok.mp hv
    rw [hv'] at hrows
    have hlen : (indexMap ws).len = ws.length := (indexMap_len_iff ws).mpr hnd
    simp only [Vocab.vocabLen, hub, Res.ok_bind, Res.pure_eq, Res.ok.injEq, hlen] at hrows
    have := length_le_of_nodup_lt i1 (n := ub) (by
      intro i hi'
      obtain ⟨_, _, g, _, rfl⟩ := (hi i).mp hi'
      exact hs.bound ub hub g)
    show ws.length + is.length ≤ _
    omega
  have hst' : StorableStorage e'.storage := by
    unfold Embeddings.toExplicit at h1
    obtain ⟨⟨ev, o⟩, _, h2⟩ := Res.bind_eq_ok.mp h1
    dsimp only at h2
    obtain ⟨vl, _, h3⟩ := Res.bind_eq_ok.mp h2
    obtain ⟨mp, _, h4⟩ := Res.bind_eq_ok.mp h3
    obtain ⟨s, hc, h5⟩ := Res.bind_eq_ok.mp h4
    obtain ⟨_, rfl⟩ := Embeddings.newWithMaybeNorms_eq_ok.mp h5
    refine hst.clone ((hcl mp).symm.trans hc) ?_
    rw [← hsh]
    have := (hmr mp s hc).1
    have hle : (shape s).1 ≤ (shape e.storage).1 := hle
    rw [this] at hle
    exact hle
  have hvr : StorableVocab (.explicit e'.vocab) := by
    refine ⟨ix', ws, m, M, .inr ⟨t, o2n, ht⟩, hev, ⟨fun w hw => ?_, hnw⟩, fun g hg => ?_, hng _ h3 fun g hg => (h4 g).mp hg,
      hm, hM⟩
    · have := hwl w hw; omega
    · obtain ⟨w, hw, hgw⟩ := (h4 g).mp hg
      have := hwl w hw
      have := bracketedNGrams_strLen hgw
      omega
  have hn' : ∀ n ∈ e'.norms, 4 * n.inner.length ≤ isizeMax := by rw [k3]; exact hn
  have hvr' : RoundTrips e'.vocab := by
    obtain ⟨ix2, ws2, m2, M2, q1, q2, q3, q4, q5, q6, q7⟩ := hvr
    exact c09_explicit_partial ix2 q1 ws2 m2 M2 _ q2 q3.1 q3.2 q4 q5 q6 q7
  have s1 : Storable e' :=
    ⟨(by intro m hm; rw [h2] at hm; cases hm), hvr', hst'.roundTrips, fun n h => c13_norms n (hn' n h)⟩
  have s2 : Storable (⟨none, e'.storage, .explicit e'.vocab, e'.norms⟩ :
      Embeddings T VocabWrap StorageWrap F32) :=
    c15_wrap _ (by intro m hm; cases hm) hvr hst' hn'
  have hb : (⟨none, e'.storage, .explicit e'.vocab, e'.norms⟩ : Embeddings T VocabWrap StorageWrap F32).write 0 =
      e'.write 0 := by
    obtain ⟨md, s, v, nm⟩ := e'
    dsimp only at h2
    subst h2
    rfl
  have hp : ∀ n : Option (NdNorms F32), n = none → u32At [] 0 ≠ some 6 := by intro _ _; decide
  obtain ⟨a1, a2⟩ := c15_round_trip _ s1 [] [] (hp _)
  obtain ⟨b1, b2⟩ := c15_round_trip _ s2 [] [] (hp _)
  simp only [List.length_nil, List.nil_append, List.append_nil] at a1 a2 b1 b2
  rw [hb] at b2
  obtain ⟨e'', c1, c2, c3, c4, c5, -⟩ := c21_embeddings _ _ _ a2
  exact ⟨e', h1, a1, a2, b2, ⟨e'', c1, by rw [c2, h2], c3, by rw [c4, k3], c5⟩, hwords,
    fun w hw => ⟨(k5 w hw).2.1, (k5 w hw).2.2⟩⟩

/-- C84: embeddings with buckets, converted to explicit n-grams and written, are read back unchanged (as concrete and
as wrapper types), and memory mapped with the same rows; known words are answered as before the conversion. -/
theorem c84_file {T I : Type} [Toml T] [BucketIndexer I] [Scalar F32] (e : Embeddings T (SubwordVocab I) StorageWrap F32)
    (ws : List Str) (m M : Nat) (ix : I) (bow eow : Str)
    (hv : SubwordVocab.newWithBoundaries ws m M ix bow eow = .ok e.vocab) (h : Str → Nat)
    (hs : SingleIndex ix m M h) (hrows : Vocab.vocabLen e.vocab = .ok (shape e.storage).1)
    (hst : StorableStorage e.storage) (hnw : 24 * ws.length ≤ isizeMax)
    (hwl : ∀ w ∈ ws, strLen bow + strLen w + strLen eow < 2 ^ 32)
    (hng : ∀ gs : List Str, gs.Nodup → (∀ g ∈ gs, ∃ w ∈ ws, g ∈ bracketedNGrams bow w eow m M) →
      32 * gs.length ≤ isizeMax)
    (hm : m < 2 ^ 32) (hM : M < 2 ^ 32) (hn : ∀ n ∈ e.norms, 4 * n.inner.length ≤ isizeMax)
    (order : List (Str × Nat) → List (Str × Nat)) (hord : ∀ l, (order l).Perm l)
    (order2 : List (Nat × Nat) → List (Nat × Nat)) (hord2 : ∀ l, (order2 l).Perm l) :
    ∃ e' : Embeddings T ExplicitSubwordVocab StorageWrap F32, e.toExplicit order order2 = .ok e' ∧
      (e'.write 0).status = .ok () ∧
      (Embeddings.read (e'.write 0).bytes 0 : Res (Embeddings T ExplicitSubwordVocab StorageWrap F32)) = .ok e' ∧
      (Embeddings.read (e'.write 0).bytes 0 : Res (Embeddings T VocabWrap StorageWrap F32)) =
        .ok ⟨none, e'.storage, .explicit e'.vocab, e'.norms⟩ ∧
      (∃ e'' : Embeddings T ExplicitSubwordVocab StorageWrap F32,
        Embeddings.mmap mmapStorageWrap (e'.write 0).bytes 0 = .ok e'' ∧
        e''.metadata = none ∧ e''.vocab = e'.vocab ∧ e''.norms = e.norms ∧ SameRows e''.storage e'.storage) ∧
      Vocab.words e'.vocab = ws ∧
      ∀ w ∈ ws, e'.embedding w = e.embedding w ∧ e'.embeddingWithNorm w = e.embeddingWithNorm w :=
  toExplicit_file e ws m M ix bow eow hv h hs hrows e.storage hst rfl (fun _ => rfl) hnw hwl hng hm hM hn order hord order2 hord2

attribute [local instance] exampleScalar exampleToml in
/-- `c84_file` applies to a concrete case with other boundary markers and five different n-grams. -/
example : ∃ e' : Embeddings Str ExplicitSubwordVocab StorageWrap F32,
    (⟨some ⟨['a']⟩, .ndArray exampleMarkers.storage, exampleMarkers.vocab, some ⟨[7, 8]⟩⟩ :
      Embeddings Str _ StorageWrap F32).toExplicit List.reverse List.reverse = .ok e' ∧
    (Embeddings.read (e'.write 0).bytes 0 : Res (Embeddings Str ExplicitSubwordVocab StorageWrap F32)) = .ok e' ∧
    e'.vocab.indexer.ngrams.length = 5 := by
  have hix : HashIndexer.new 2 = .ok ⟨2, 3⟩ := rfl
  have hv : SubwordVocab.newWithBoundaries [['a'], ['b', 'b']] 2 2 (⟨2, 3⟩ : HashIndexer) ['['] [']'] =
    .ok exampleMarkers.vocab := rfl
  obtain ⟨e', h1, _, h2, _⟩ := c84_file
    (⟨some ⟨['a']⟩, .ndArray exampleMarkers.storage, exampleMarkers.vocab, some ⟨[7, 8]⟩⟩ :
      Embeddings Str _ StorageWrap F32)
    [['a'], ['b', 'b']] 2 2 _ ['['] [']'] hv _
    (HashIndexer.singleIndex hix (by decide) (by decide)) rfl
    ⟨(by unfold Mat.WF; decide), by decide, by decide, by decide⟩ (by decide) (by decide) (by
      intro gs hn hg
      have hsub : gs ⊆ [['[', 'a'], ['a', ']'], ['[', 'b'], ['b', 'b'], ['b', ']']] := by
        intro g h
        obtain ⟨w, hw, hgw⟩ := hg g h
        have : ∀ w ∈ [['a'], ['b', 'b']], ∀ g ∈ bracketedNGrams ['['] w [']'] 2 2,
          g ∈ [['[', 'a'], ['a', ']'], ['[', 'b'], ['b', 'b'], ['b', ']']] := by decide
        exact this w hw g hgw
      have h5 : gs.length ≤ 5 := length_le_of_nodup_subset hn hsub
      have : (160 : Nat) ≤ isizeMax := by decide
      omega)
    (by decide) (by decide) (by rintro _ ⟨⟩; decide) List.reverse List.reverse_perm List.reverse List.reverse_perm
  refine ⟨e', h1, h2, ?_⟩
  have hk : ((⟨some ⟨['a']⟩, .ndArray exampleMarkers.storage, exampleMarkers.vocab, some ⟨[7, 8]⟩⟩ :
      Embeddings Str _ StorageWrap F32).toExplicit (S' := StorageWrap) List.reverse List.reverse).map
      (fun e => e.vocab.indexer.ngrams.length) = .ok 5 := by decide +kernel
  rw [h1] at hk
  exact Res.ok.inj hk

end FF
