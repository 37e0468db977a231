import Verif.Props.EmbeddingsIO
import Verif.Props.FloatWrite

/-!
# C127: the format in which embeddings are exchanged does not matter
-/

namespace FF.Ieee

open Embeddings

section
attribute [local instance] scalar floatText

variable {T T' V S : Type} [Vocab V] [Storage S F32]

/-- The three table formats. -/
inductive Table where
  | word2vec | text | textDims
  deriving DecidableEq

/-- src/compat/word2vec.rs:140-166, src/compat/text.rs:300-314, :341-345: the writer of the format. -/
def Table.write (t : Table) (un : Bool) (e : Embeddings T V S F32) : W :=
  match t with
  | .word2vec => e.writeWord2vec un
  | .text => e.writeText un
  | .textDims => e.writeTextDims un

/-- src/compat/word2vec.rs:89-119, src/compat/text.rs:101-103, :173-186: the raw reader of the format, from the start of the data. -/
def Table.readRaw (t : Table) (lossy : Bool) (d : Bytes) : Res (Embeddings T' SimpleVocab (NdArray F32) F32) :=
  match t with
  | .word2vec => (Embeddings.readWord2vecRaw lossy d 0).map (·.1)
  | .text => Embeddings.readTextRaw lossy d 0
  | .textDims => Embeddings.readTextDimsRaw lossy d 0

/-- src/compat/word2vec.rs:58-72, src/compat/text.rs:73-85, :139-151: the reader that normalises. -/
def Table.read (t : Table) (lossy : Bool) (d : Bytes) : Res (Embeddings T' SimpleVocab (NdArray F32) F32) :=
  match t with
  | .word2vec => (Embeddings.readWord2vec lossy d 0).map (·.1)
  | .text => Embeddings.readText lossy d 0
  | .textDims => Embeddings.readTextDims lossy d 0

theorem embeddings_ext {e e' : Embeddings T' SimpleVocab (NdArray F32) F32} {ws : List Str} {m : Mat F32}
    (h1 : SimpleVocab.new ws = .ok e.vocab) (h2 : e.storage.inner = m) (h3 : e.norms = none) (h4 : e.metadata = none)
    (g1 : SimpleVocab.new ws = .ok e'.vocab) (g2 : e'.storage.inner = m) (g3 : e'.norms = none) (g4 : e'.metadata = none) :
    e = e' := by
  obtain ⟨_, ⟨_⟩, _, _⟩ := e
  obtain ⟨_, ⟨_⟩, _, _⟩ := e'
  simp_all

/-- **C127.** The three formats carry the same embeddings: whichever is used, and whether it is read strictly or not, raw reading gives
one and the same result, with the words and the (stored or unnormalised) vectors bit by bit. -/
theorem c127_raw (e : Embeddings T V S F32) (rs : List (Str × List F32 × F32)) (h : e.iterWithNorms = .ok rs)
    (hlen : Vocab.wordsLen e.vocab = rs.length) (hne : rs ≠ []) (hnd : (rs.map (·.1)).Nodup)
    (hdims : ∀ r ∈ rs, r.2.1.length = e.dims) (hwords : ∀ r ∈ rs, IsToken r.1 ∧ Word2vecWord r.1)
    (hmem : 4 * (rs.length * e.dims) ≤ isizeMax) (hmem' : 24 * rs.length ≤ isizeMax) (hd : e.dims ≤ isizeMax) (un : Bool)
    (hnan : ∀ r ∈ rs, ∀ x ∈ (if un then r.2.1.map (mul · r.2.2) else r.2.1), isNan x = false) :
    ∃ e' : Embeddings T' SimpleVocab (NdArray F32) F32,
      (∀ (t : Table) (lossy : Bool), (t.write un e).Good ∧ t.readRaw lossy (t.write un e).bytes = .ok e') ∧
      SimpleVocab.new (rs.map (·.1)) = .ok e'.vocab ∧ Vocab.words e'.vocab = rs.map (·.1) ∧
      e'.storage.inner = ⟨e.dims, rs.map fun r => if un then r.2.1.map (mul · r.2.2) else r.2.1⟩ ∧
      e'.norms = none ∧ e'.metadata = none := by
  have hval : ∀ r ∈ rs, ∀ x ∈ writtenVector un r, FloatText.Faithful x := fun r hr x hx => faithful (hnan r hr x hx)
  obtain ⟨-, e', -, h1, h2, h3, h4⟩ := c49_text (T' := T') e rs h hne hnd hdims (fun r hr => (hwords r hr).1) un false hval
  refine ⟨e', ?_, h1, ?_, h2, h3, h4⟩
  · intro t lossy
    cases t with
    | word2vec =>
      obtain ⟨g, e2, p, k0, k1, k2, k3, k4⟩ := c48_roundtrip (T' := T') (fun _ => rfl) e rs h hlen hnd hdims
        (fun r hr => (hwords r hr).2) hmem hmem' hd un lossy
      refine ⟨g, ?_⟩
      rw [embeddings_ext h1 h2 h3 h4 k1 k2 k3 k4]
      exact Res.map_eq_ok.mpr ⟨_, k0, rfl⟩
    | text =>
      obtain ⟨g, e2, k0, k1, k2, k3, k4⟩ := c49_text (T' := T') e rs h hne hnd hdims (fun r hr => (hwords r hr).1) un lossy hval
      refine ⟨g, ?_⟩
      rw [embeddings_ext h1 h2 h3 h4 k1 k2 k3 k4]
      exact k0
    | textDims =>
      obtain ⟨g, e2, k0, k1, k2, k3, k4⟩ := c49_text_dims (T' := T') e rs h hlen hne hnd hdims (fun r hr => (hwords r hr).1) un
        lossy hval hmem hmem'
      refine ⟨g, ?_⟩
      rw [embeddings_ext h1 h2 h3 h4 k1 k2 k3 k4]
      exact k0
  · obtain ⟨-, hv⟩ := SimpleVocab.new_eq_ok.mp h1
    rw [hv]
    rfl

/-- The readers that normalise are the raw readers with normalisation. -/
theorem Table.read_eq (t : Table) (lossy : Bool) (d : Bytes) :
    (t.read lossy d : Res (Embeddings T' SimpleVocab (NdArray F32) F32)) = (t.readRaw lossy d).bind normalizeRead := by
  cases t with
  | word2vec =>
    simp only [Table.read, Table.readRaw, Embeddings.readWord2vec, Rd.bind_apply]
    cases hr : (Embeddings.readWord2vecRaw lossy d 0 : Res (Embeddings T' SimpleVocab (NdArray F32) F32 × Nat)) with
    | ok r =>
      show Res.map _ (Res.map _ (normalizeRead r.1)) = normalizeRead r.1
      cases normalizeRead r.1 <;> rfl
    | err => rfl
    | panic => rfl
  | text => rfl
  | textDims => rfl

/-- **C127** (the readers that normalise). They give one and the same result too. -/
theorem c127_normalized (e : Embeddings T V S F32) (rs : List (Str × List F32 × F32)) (h : e.iterWithNorms = .ok rs)
    (hlen : Vocab.wordsLen e.vocab = rs.length) (hne : rs ≠ []) (hnd : (rs.map (·.1)).Nodup)
    (hdims : ∀ r ∈ rs, r.2.1.length = e.dims) (hwords : ∀ r ∈ rs, IsToken r.1 ∧ Word2vecWord r.1)
    (hmem : 4 * (rs.length * e.dims) ≤ isizeMax) (hmem' : 24 * rs.length ≤ isizeMax) (hd : e.dims ≤ isizeMax) (un : Bool)
    (hnan : ∀ r ∈ rs, ∀ x ∈ (if un then r.2.1.map (mul · r.2.2) else r.2.1), isNan x = false) :
    ∃ e' : Embeddings T' SimpleVocab (NdArray F32) F32,
      (∀ (t : Table) (lossy : Bool), t.read lossy (t.write un e).bytes = .ok e') ∧ Vocab.words e'.vocab = rs.map (·.1) ∧
      e'.storage.inner = ⟨e.dims, (rs.map fun r => if un then r.2.1.map (mul · r.2.2) else r.2.1).map fun v => (l2Normalize v).1⟩ ∧
      e'.norms = some ⟨(rs.map fun r => if un then r.2.1.map (mul · r.2.2) else r.2.1).map fun v => (l2Normalize v).2⟩ := by
  obtain ⟨e1, g, hvoc, hw, hs, -, -⟩ := c127_raw (T' := T') e rs h hlen hne hnd hdims hwords hmem hmem' hd un hnan
  have hv : Vocab.vocabLen e1.vocab = .ok (Storage.shape e1.storage).1 := by
    obtain ⟨-, hv⟩ := SimpleVocab.new_eq_ok.mp hvoc
    show Res.ok e1.vocab.indices.len = .ok e1.storage.inner.rows.length
    rw [hv, hs, (indexMap_len_iff _).mpr hnd]
    simp
  obtain ⟨e2, he, hw2, hs2, hn2⟩ : ∃ e2, normalizeRead e1 = .ok e2 ∧ Vocab.words e2.vocab = rs.map (·.1) ∧
      e2.storage.inner = ⟨e1.storage.inner.cols, e1.storage.inner.rows.map fun v => (l2Normalize v).1⟩ ∧
      e2.norms = some ⟨e1.storage.inner.rows.map fun v => (l2Normalize v).2⟩ := ⟨_, normalizeRead_eq hv, hw, rfl, rfl⟩
  rw [hs] at hs2 hn2
  refine ⟨e2, fun t lossy => ?_, hw2, hs2, hn2⟩
  rw [Table.read_eq, (g t lossy).2]
  exact he

/-- One conversion: a table format, with or without un-normalising, read strictly or not, or the finalfusion format. -/
inductive Conversion where
  | table (format : Table) (unnormalize lossy : Bool)
  | finalfusion

/-- The embeddings read (raw) from what was written for the given ones; `Table.write` and `Table.readRaw` name the code for tables,
and src/embeddings.rs:555-586, :519-547 is that for the finalfusion format. -/
def Conversion.apply [Toml T'] (c : Conversion) (e : Embeddings T' SimpleVocab (NdArray F32) F32) :
    Res (Embeddings T' SimpleVocab (NdArray F32) F32) :=
  match c with
  | .table t un lossy => t.readRaw lossy (t.write un e).bytes
  | .finalfusion => Embeddings.read (e.write 0).bytes 0

theorem iterWithNorms_raw (e : Embeddings T' SimpleVocab (NdArray F32) F32) (us : List (List F32)) (k : Nat)
    (hs : e.storage.inner = ⟨k, us⟩) (hn : e.norms = none) (h1 : us.length = e.vocab.words.length) :
    e.iterWithNorms = .ok (e.vocab.words.zip (us.map fun u => (u, (0x3f800000 : F32)))) := by
  have hs' : e.storage = ⟨⟨k, us⟩⟩ := by cases he : e.storage; rw [he] at hs; exact congrArg NdArray.mk hs
  unfold Embeddings.iterWithNorms
  have := zip_ok (fun p => do
    let v ← Storage.embedding e.storage p.2
    let n ← e.normAt p.2
    return (p.1, v, n)) id e.vocab.words us (us.map fun _ => (0x3f800000 : F32)) (fun i w u n _ hu hn' => ?_) h1 (by simpa using h1)
  · rw [List.map_id] at this
    rw [show us.map (fun u => (u, (0x3f800000 : F32))) = us.zip (us.map fun _ => 0x3f800000) by
      conv => rhs; rw [← List.map_id us]
      rw [List.map_id us, ← List.zip_map']
      simp]
    exact this
  · have hn1 : n = 0x3f800000 := by
      rw [List.getElem?_map, hu] at hn'
      exact (Option.some.inj hn').symm
    rw [hs']
    show (Res.unwrap us[i]? >>= _) = _
    rw [hu]
    show (e.normAt i >>= _) = _
    unfold Embeddings.normAt
    rw [hn, hn1]
    rfl

/-- **C127** (chains of conversions). Once embeddings have been written and read, any number of further conversions between the
table formats and the finalfusion format changes nothing. (The finalfusion format needs fewer than `2^32` dimensions, and words with fewer
than `2^32` bytes.) -/
theorem c127_chain [Toml T'] (e : Embeddings T V S F32) (rs : List (Str × List F32 × F32)) (h : e.iterWithNorms = .ok rs)
    (hlen : Vocab.wordsLen e.vocab = rs.length) (hne : rs ≠ []) (hnd : (rs.map (·.1)).Nodup)
    (hdims : ∀ r ∈ rs, r.2.1.length = e.dims) (hwords : ∀ r ∈ rs, IsToken r.1 ∧ Word2vecWord r.1)
    (hmem : 4 * (rs.length * e.dims) ≤ isizeMax) (hmem' : 24 * rs.length ≤ isizeMax) (hd : e.dims ≤ isizeMax) (un : Bool)
    (hnan : ∀ r ∈ rs, ∀ x ∈ (if un then r.2.1.map (mul · r.2.2) else r.2.1), isNan x = false) (t : Table) (lossy : Bool)
    (hbytes : ∀ r ∈ rs, strLen r.1 < 2 ^ 32) (hd32 : e.dims < 2 ^ 32) :
    ∃ e' : Embeddings T' SimpleVocab (NdArray F32) F32,
      t.readRaw lossy (t.write un e).bytes = .ok e' ∧
      ∀ cs : List Conversion, cs.foldlM (fun e c => c.apply e) e' = .ok e' := by
  obtain ⟨e', g, hv, hw, hs, hn, hm⟩ := c127_raw (T' := T') e rs h hlen hne hnd hdims hwords hmem hmem' hd un hnan
  refine ⟨e', (g t lossy).2, ?_⟩
  set us := rs.map fun r => if un then r.2.1.map (mul · r.2.2) else r.2.1 with hus
  have hw' : e'.vocab.words = rs.map (·.1) := hw
  have hl : us.length = e'.vocab.words.length := by rw [hw', hus]; simp
  have hit := iterWithNorms_raw e' us e.dims hs hn hl
  set rs' := e'.vocab.words.zip (us.map fun u => (u, (0x3f800000 : F32))) with hrs'
  have hf : rs'.map (·.1) = rs.map (·.1) := by
    rw [hrs', ← hw', ← List.unzip_fst, List.unzip_zip (by simp [hl])]
  have hlen' : rs'.length = rs.length := by simpa using congrArg List.length hf
  have hsnd : rs'.map (·.2) = us.map fun u => (u, (0x3f800000 : F32)) := by
    rw [hrs', ← List.unzip_snd, List.unzip_zip (by simp [hl])]
  have hmem2 : ∀ r ∈ rs', r.2.2 = 0x3f800000 ∧ r.2.1 ∈ us := by
    intro r hr
    have : r.2 ∈ rs'.map (·.2) := List.mem_map_of_mem hr
    rw [hsnd] at this
    obtain ⟨u, hu, he⟩ := List.mem_map.mp this
    rw [← he]
    exact ⟨rfl, hu⟩
  have husn : ∀ u ∈ us, u.length = e.dims ∧ ∀ x ∈ u, isNan x = false := by
    intro u hu
    obtain ⟨r, hr, rfl⟩ := List.mem_map.mp hu
    refine ⟨?_, hnan r hr⟩
    have := hdims r hr
    split <;> simpa using this
  have hone : ∀ r ∈ rs', ∀ un' : Bool, (if un' then r.2.1.map (mul · r.2.2) else r.2.1) = r.2.1 := by
    intro r hr un'
    obtain ⟨h1, h2⟩ := hmem2 r hr
    cases un'
    · rfl
    · rw [h1]
      show r.2.1.map (mul · 0x3f800000) = r.2.1
      conv => rhs; rw [← List.map_id r.2.1]
      exact List.map_congr_left fun x hx => mul_one_eq ((husn _ h2).2 x hx)
  have hdim : e'.dims = e.dims := by
    show e'.storage.inner.cols = e.dims
    rw [hs]
  have tables : ∀ (t : Table) (un' lossy : Bool), t.readRaw lossy (t.write un' e').bytes = .ok e' := by
    intro t un' lossy
    obtain ⟨e2, k, kv, -, ks, kn, km⟩ := c127_raw (T' := T') e' rs' hit
      (by
        obtain ⟨-, hv'⟩ := SimpleVocab.new_eq_ok.mp hv
        show e'.vocab.indices.len = _
        rw [hlen', hv', (indexMap_len_iff _).mpr hnd]
        simp)
      (by intro h0; rw [h0] at hlen'; exact hne (List.length_eq_zero_iff.mp hlen'.symm))
      (by rw [hf]; exact hnd)
      (by intro r hr; rw [hdim]; exact (husn _ (hmem2 r hr).2).1)
      (by
        intro r hr
        have : r.1 ∈ rs'.map (·.1) := List.mem_map_of_mem hr
        rw [hf] at this
        obtain ⟨q, hq, he⟩ := List.mem_map.mp this
        rw [← he]
        exact hwords q hq)
      (by rw [hlen', hdim]; exact hmem) (by rw [hlen']; exact hmem') (by rw [hdim]; exact hd) un'
      (by
        intro r hr x hx
        rw [hone r hr] at hx
        exact (husn _ (hmem2 r hr).2).2 x hx)
    have he : e2 = e' := by
      rw [hf] at kv
      refine embeddings_ext kv ks kn km hv ?_ hn hm
      rw [hs, hdim]
      congr 1
      rw [List.map_congr_left fun r hr => hone r hr un']
      show us = rs'.map ((fun q : List F32 × F32 => q.1) ∘ Prod.snd)
      rw [← List.map_map, hsnd, List.map_map]
      conv => lhs; rw [← List.map_id us]
      rfl
    have := (k t lossy).2
    rw [he] at this
    exact this
  have hrow : us.length = rs.length := by rw [hus]; simp
  have hst : Storable e' := by
    refine ⟨by rw [hm]; simp, ?_, ?_, by rw [hn]; simp⟩
    · refine c07_simple (rs.map (·.1)) e'.vocab hv ?_ (by simpa using hmem')
      intro w hw
      obtain ⟨r, hr, rfl⟩ := List.mem_map.mp hw
      exact hbytes r hr
    · refine c11_array e'.storage ?_ ?_ ?_ ?_ <;> rw [hs]
      · exact fun u hu => (husn u hu).1
      · exact hd32
      · show us.length < _
        have : isizeMax = 2 ^ 63 - 1 := by decide
        omega
      · show 4 * (us.length * e.dims) ≤ _
        rw [hrow]
        exact hmem
  have step : ∀ c : Conversion, c.apply e' = .ok e' := by
    intro c
    cases c with
    | table t un' lossy => exact tables t un' lossy
    | finalfusion =>
      have := (c15_round_trip e' hst [] [] (fun _ => by decide)).2
      simpa [Conversion.apply] using this
  intro cs
  induction cs with
  | nil => rfl
  | cons c cs ih =>
    rw [List.foldlM_cons, step c]
    exact ih

/-- Embeddings with one word and one component. -/
def single (w : Str) (x : F32) : Embeddings Str SimpleVocab (NdArray F32) F32 :=
  ⟨none, ⟨⟨1, [[x]]⟩⟩, ⟨indexMap [w], [w]⟩, none⟩

/-- The words and vectors read (strictly) from what was written for embeddings. -/
def exchanged (t : Table) (e : Embeddings Str SimpleVocab (NdArray F32) F32) : Res (List Str × List (List F32)) :=
  (t.readRaw false (t.write false e).bytes : Res (Embeddings Str SimpleVocab (NdArray F32) F32)).map
    fun e' => (e'.vocab.words, e'.storage.inner.rows)

/-- **C127** (the conditions are needed). A NaN that is not the quiet one is kept by word2vec files and replaced in text files; a word
with a tabulator is kept by word2vec files and makes text files unreadable; no words at all are kept by word2vec files, and the text file
without lines makes the reader panic. -/
theorem c127_conditions :
    exchanged .word2vec (single ['a'] 0xffc00001) = .ok ([['a']], [[0xffc00001]]) ∧
    exchanged .text (single ['a'] 0xffc00001) = .ok ([['a']], [[0x7fc00000]]) ∧
    exchanged .word2vec (single ['a', '\t', 'b'] 0x3f800000) = .ok ([['a', '\t', 'b']], [[0x3f800000]]) ∧
    exchanged .text (single ['a', '\t', 'b'] 0x3f800000) = .err .format ∧
    exchanged .word2vec ⟨none, ⟨⟨1, []⟩⟩, ⟨indexMap [], []⟩, none⟩ = .ok ([], []) ∧
    exchanged .text ⟨none, ⟨⟨1, []⟩⟩, ⟨indexMap [], []⟩, none⟩ = .panic := by
  refine ⟨?_, ?_, ?_, ?_, ?_, ?_⟩ <;> decide +kernel

/-! ## Examples -/

theorem exampleNumbers_words : ∀ r ∈ [(['a'], [(0x3dcccccd : F32), 0x80000000], (0x40000000 : F32)),
    (['b'], [0x3f800000, 1], 0x3f800000)], IsToken r.1 ∧ Word2vecWord r.1 := by
  intro r hr
  simp only [List.mem_cons, List.not_mem_nil, or_false] at hr
  rcases hr with rfl | rfl <;>
    exact ⟨by unfold IsToken; decide, by decide, by rintro c ⟨⟩; decide, by rintro c ⟨⟩; decide⟩

/-- The theorems applied to the embeddings of C79 (`0.1` and `-0` with norm 2, `1` and the smallest number with norm 1). -/
example (un : Bool) := c127_raw (T' := Str) exampleNumbers _ exampleNumbers_rows rfl (by decide) (by decide) (by decide)
  exampleNumbers_words (by decide) (by decide) (by decide) un (by cases un <;> decide +kernel)
example (un : Bool) := c127_normalized (T' := Str) exampleNumbers _ exampleNumbers_rows rfl (by decide) (by decide) (by decide)
  exampleNumbers_words (by decide) (by decide) (by decide) un (by cases un <;> decide +kernel)
attribute [local instance] exampleToml in
example (un : Bool) := c127_chain (T' := Str) exampleNumbers _ exampleNumbers_rows rfl (by decide) (by decide) (by decide)
  exampleNumbers_words (by decide) (by decide) (by decide) un (by cases un <;> decide +kernel) .textDims true
  (by decide) (by decide)

end

end FF.Ieee
