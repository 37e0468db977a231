import Verif.Props.Accepted
import Verif.Props.Subword
import Verif.Props.EmbeddingsIO
import Verif.Props.Mmap

/-!
# What exactly happens where a property fails (C68 to C71)
-/

namespace FF

open Rd Layout Embeddings

/-! ## C68: what a round trip of a vocabulary keeps -/

/-- What is written at any position reads back as `y`, whatever precedes and follows. -/
def ReadsBackAs {X : Type} [WriteChunk X] [ReadChunk X] (x y : X) : Prop :=
  ∀ pre post : Bytes, (writeChunk x pre.length).status = .ok () ∧
    readChunk (pre ++ (writeChunk x pre.length).bytes ++ post) pre.length =
      .ok (y, pre.length + (writeChunk x pre.length).bytes.length)

theorem ReadsBackAs.of_eq {X : Type} [WriteChunk X] [ReadChunk X] {x y : X}
    (h : ∀ off, writeChunk x off = writeChunk y off) (hy : RoundTrips y) : ReadsBackAs x y := by
  intro pre post
  rw [h]
  exact hy pre post

theorem newWithBoundaries_default {I : Type} [Indexer I] {ws : List Str} {m M : Nat} {ix : I} {bow eow : Str}
    {v : SubwordVocab I} (h : SubwordVocab.newWithBoundaries ws m M ix bow eow = .ok v) :
    SubwordVocab.new ws m M ix = .ok { v with bow := ['<'], eow := ['>'] } := by
  obtain ⟨h1, h2, rfl⟩ := SubwordVocab.newWithBoundaries_eq_ok.mp h
  exact SubwordVocab.newWithBoundaries_eq_ok.mpr ⟨h1, h2, rfl⟩

/-- C68, bucket vocabularies with any boundary markers: everything but the markers comes back. -/
theorem c68_bucket (e : Nat) (ix : HashIndexer) (hix : HashIndexer.new e = .ok ix) (ws : List Str) (m M : Nat)
    (bow eow : Str) (v : BucketSubwordVocab) (hv : SubwordVocab.newWithBoundaries ws m M ix bow eow = .ok v)
    (h : ∀ w ∈ ws, strLen w < 2 ^ 32) (hl : 24 * ws.length ≤ isizeMax) (hm : m < 2 ^ 32) (hM : M < 2 ^ 32) :
    ReadsBackAs v { v with bow := ['<'], eow := ['>'] } :=
  .of_eq (fun _ => rfl) (c08_bucket_partial e ix hix ws m M _ (newWithBoundaries_default hv) h hl hm hM)

/-- C68, fastText vocabularies. -/
theorem c68_fasttext (b : Nat) (ix : FastTextIndexer) (hix : FastTextIndexer.new b = .ok ix) (ws : List Str) (m M : Nat)
    (bow eow : Str) (v : FastTextSubwordVocab) (hv : SubwordVocab.newWithBoundaries ws m M ix bow eow = .ok v)
    (h : ∀ w ∈ ws, strLen w < 2 ^ 32) (hl : 24 * ws.length ≤ isizeMax) (hm : m < 2 ^ 32) (hM : M < 2 ^ 32) :
    ReadsBackAs v { v with bow := ['<'], eow := ['>'] } :=
  .of_eq (fun _ => rfl) (c08_fasttext_partial b ix hix ws m M _ (newWithBoundaries_default hv) h hl hm hM)

/-- C68, explicit vocabularies. -/
theorem c68_explicit (ix : ExplicitIndexer)
    (hix : (∃ ng, ExplicitIndexer.new ng = .ok ix) ∨ ∃ t o2n, ExplicitIndexer.newWithIndices t = .ok (ix, o2n))
    (ws : List Str) (m M : Nat) (bow eow : Str) (v : ExplicitSubwordVocab)
    (hv : SubwordVocab.newWithBoundaries ws m M ix bow eow = .ok v)
    (h : ∀ w ∈ ws, strLen w < 2 ^ 32) (hl : 24 * ws.length ≤ isizeMax)
    (hg : ∀ g ∈ ix.ngrams, strLen g < 2 ^ 32) (hgl : 32 * ix.ngrams.length ≤ isizeMax)
    (hm : m < 2 ^ 32) (hM : M < 2 ^ 32) : ReadsBackAs v { v with bow := ['<'], eow := ['>'] } :=
  .of_eq (fun _ => rfl) (c09_explicit_partial ix hix ws m M _ (newWithBoundaries_default hv) h hl hg hgl hm hM)

/-- C68, floret vocabularies: everything but the words comes back. -/
theorem c68_floret (nb nh : Nat) (seed : UInt32) (ix : FloretIndexer) (hix : FloretIndexer.new nb nh seed = .ok ix)
    (ws : List Str) (m M : Nat) (bow eow : Str) (v : FloretSubwordVocab)
    (hv : SubwordVocab.newWithBoundaries ws m M ix bow eow = .ok v) (h1 : strLen bow < 2 ^ 32) (h2 : strLen eow < 2 ^ 32)
    (hm : m < 2 ^ 32) (hM : M < 2 ^ 32) : ReadsBackAs v { v with indices := ⟨[]⟩, words := [] } := by
  refine .of_eq (fun _ => rfl) (c10_floret_partial nb nh seed ix hix m M bow eow _ ?_ h1 h2 hm hM)
  obtain ⟨_, ⟨ub, hub, hle⟩, rfl⟩ := SubwordVocab.newWithBoundaries_eq_ok.mp hv
  refine SubwordVocab.newWithBoundaries_eq_ok.mpr ⟨by simp, ⟨ub, hub, ?_⟩, rfl⟩
  simp at hle ⊢
  omega

/-- Two words and other markers under each kind of vocabulary: hypotheses of `c68_bucket`, `c68_fasttext`,
`c68_explicit` and `c68_floret`. -/
example := c68_bucket 21 _ rfl [['a'], ['é']] 3 6 ['^'] ['$'] _ rfl (by decide) (by decide) (by decide) (by decide)
example := c68_fasttext 100 _ rfl [['a'], ['é']] 3 6 ['^'] ['$'] _ rfl (by decide) (by decide) (by decide) (by decide)
example := c68_explicit _ (.inl ⟨[['a'], ['b', 'c']], rfl⟩) [['a'], ['é']] 1 2 ['^'] ['$'] _ rfl (by decide)
  (by decide) (by decide) (by decide) (by decide) (by decide)
example := c68_floret 10 2 7 _ rfl [['a'], ['é']] 3 6 ['^'] ['$'] _ rfl (by decide) (by decide) (by decide) (by decide)

theorem ReadsBackAs.roundTrips_iff {X : Type} [WriteChunk X] [ReadChunk X] {x y : X} (h : ReadsBackAs x y) :
    RoundTrips x ↔ x = y := by
  constructor
  · intro hr
    have h1 := (h [] []).2
    rw [(hr [] []).2, Res.ok.injEq, Prod.mk.injEq] at h1
    exact h1.1
  · intro e
    subst e; exact h

/-- C08 (part), any boundary markers: exactly the bucket vocabularies with the default markers survive. -/
theorem c08_bucket_exact_partial (e : Nat) (ix : HashIndexer) (hix : HashIndexer.new e = .ok ix)
    (ws : List Str) (m M : Nat) (bow eow : Str) (v : BucketSubwordVocab)
    (hv : SubwordVocab.newWithBoundaries ws m M ix bow eow = .ok v)
    (h : ∀ w ∈ ws, strLen w < 2 ^ 32) (hl : 24 * ws.length ≤ isizeMax) (hm : m < 2 ^ 32) (hM : M < 2 ^ 32) :
    RoundTrips v ↔ bow = ['<'] ∧ eow = ['>'] := by
  refine (c68_bucket e ix hix ws m M bow eow v hv h hl hm hM).roundTrips_iff.trans ?_
  rw [(SubwordVocab.newWithBoundaries_eq_ok.mp hv).2.2]; simp

/-- C08 (part), any boundary markers: the same for fastText vocabularies. -/
theorem c08_fasttext_exact_partial (b : Nat) (ix : FastTextIndexer) (hix : FastTextIndexer.new b = .ok ix)
    (ws : List Str) (m M : Nat) (bow eow : Str) (v : FastTextSubwordVocab)
    (hv : SubwordVocab.newWithBoundaries ws m M ix bow eow = .ok v)
    (h : ∀ w ∈ ws, strLen w < 2 ^ 32) (hl : 24 * ws.length ≤ isizeMax) (hm : m < 2 ^ 32) (hM : M < 2 ^ 32) :
    RoundTrips v ↔ bow = ['<'] ∧ eow = ['>'] := by
  refine (c68_fasttext b ix hix ws m M bow eow v hv h hl hm hM).roundTrips_iff.trans ?_
  rw [(SubwordVocab.newWithBoundaries_eq_ok.mp hv).2.2]; simp

/-- C09 (part), any boundary markers: the same for explicit n-gram vocabularies. -/
theorem c09_explicit_exact_partial (ix : ExplicitIndexer)
    (hix : (∃ ng, ExplicitIndexer.new ng = .ok ix) ∨ ∃ t o2n, ExplicitIndexer.newWithIndices t = .ok (ix, o2n))
    (ws : List Str) (m M : Nat) (bow eow : Str) (v : ExplicitSubwordVocab)
    (hv : SubwordVocab.newWithBoundaries ws m M ix bow eow = .ok v)
    (h : ∀ w ∈ ws, strLen w < 2 ^ 32) (hl : 24 * ws.length ≤ isizeMax)
    (hg : ∀ g ∈ ix.ngrams, strLen g < 2 ^ 32) (hgl : 32 * ix.ngrams.length ≤ isizeMax)
    (hm : m < 2 ^ 32) (hM : M < 2 ^ 32) : RoundTrips v ↔ bow = ['<'] ∧ eow = ['>'] := by
  refine (c68_explicit ix hix ws m M bow eow v hv h hl hg hgl hm hM).roundTrips_iff.trans ?_
  rw [(SubwordVocab.newWithBoundaries_eq_ok.mp hv).2.2]; simp

/-- C10 (part), with words: exactly the floret vocabularies without words survive. -/
theorem c10_floret_exact_partial (nb nh : Nat) (seed : UInt32) (ix : FloretIndexer)
    (hix : FloretIndexer.new nb nh seed = .ok ix) (ws : List Str) (m M : Nat) (bow eow : Str) (v : FloretSubwordVocab)
    (hv : SubwordVocab.newWithBoundaries ws m M ix bow eow = .ok v)
    (h1 : strLen bow < 2 ^ 32) (h2 : strLen eow < 2 ^ 32) (hm : m < 2 ^ 32) (hM : M < 2 ^ 32) :
    RoundTrips v ↔ ws = [] := by
  refine (c68_floret nb nh seed ix hix ws m M bow eow v hv h1 h2 hm hM).roundTrips_iff.trans ?_
  rw [(SubwordVocab.newWithBoundaries_eq_ok.mp hv).2.2]
  simp only [SubwordVocab.mk.injEq, true_and, and_true]
  constructor
  · exact fun h => h.2
  · rintro rfl; exact ⟨rfl, rfl⟩

/-- The same vocabularies: hypotheses of `c08_bucket_exact_partial`, `c08_fasttext_exact_partial`,
`c09_explicit_exact_partial` and `c10_floret_exact_partial`. -/
example := c08_bucket_exact_partial 21 _ rfl [['a'], ['é']] 3 6 ['^'] ['$'] _ rfl (by decide) (by decide) (by decide)
  (by decide)
example := c08_fasttext_exact_partial 100 _ rfl [['a'], ['é']] 3 6 ['^'] ['$'] _ rfl (by decide) (by decide)
  (by decide) (by decide)
example := c09_explicit_exact_partial _ (.inl ⟨[['a'], ['b', 'c']], rfl⟩) [['a'], ['é']] 1 2 ['^'] ['$'] _ rfl
  (by decide) (by decide) (by decide) (by decide) (by decide) (by decide)
example := c10_floret_exact_partial 10 2 7 _ rfl [['a'], ['é']] 3 6 ['^'] ['$'] _ rfl (by decide) (by decide)
  (by decide) (by decide)

example : ∃ ix v, HashIndexer.new 21 = .ok ix ∧
    SubwordVocab.newWithBoundaries [['a'], ['é']] 3 6 ix ['^'] ['$'] = .ok v := ⟨_, _, rfl, rfl⟩
example : ∃ ix v, FastTextIndexer.new 100 = .ok ix ∧
    SubwordVocab.newWithBoundaries [['a'], ['é']] 3 6 ix ['^'] ['$'] = .ok v := ⟨_, _, rfl, rfl⟩
example : ∃ ix v, ExplicitIndexer.new [['a'], ['b', 'c']] = .ok ix ∧
    SubwordVocab.newWithBoundaries [['a'], ['é']] 1 2 ix ['^'] ['$'] = .ok v := ⟨_, _, rfl, rfl⟩
example : ∃ ix v, FloretIndexer.new 10 2 7 = .ok ix ∧
    SubwordVocab.newWithBoundaries [['a'], ['é']] 3 6 ix ['^'] ['$'] = .ok v := ⟨_, _, rfl, rfl⟩

/-! ## C69: how many n-grams there are, and what the size hint says -/

/-- The number of n-grams of a string of `len` characters: one of length `n` for each position where it fits. -/
def ngramCount (minN maxN len : Nat) : Nat :=
  ((List.range' minN (maxN + 1 - minN)).map fun n => len + 1 - n).sum

theorem ngramCount_succ {m k len : Nat} (hm : 1 ≤ m) :
    ((List.range' m k).map fun n => len + 1 + 1 - n).sum =
      ((List.range' m k).map fun n => len + 1 - n).sum + (min (m + k - 1) (len + 1) + 1 - m) := by
  induction k with
  | zero => simp; omega
  | succ k ih =>
    rw [List.range'_1_concat, List.map_append, List.map_append, List.sum_append, List.sum_append, ih]
    simp only [List.map_cons, List.map_nil, List.sum_cons, List.sum_nil]
    omega

theorem ngramCount_le_aux {m len : Nat} (hm : 1 ≤ m) (k : Nat) :
    ((List.range' m k).map fun n => len + 1 - n).sum ≤ k * len ∧
      (((List.range' m k).map fun n => len + 1 - n).sum = k * len ↔ len = 0 ∨ k = 0 ∨ m + k = 2) := by
  induction k with
  | zero => simp
  | succ k ih =>
    rw [List.range'_1_concat, List.map_append, List.sum_append, Nat.succ_mul]
    simp only [List.map_cons, List.map_nil, List.sum_cons, List.sum_nil]
    omega

theorem specFrom_length {m M : Nat} (hm : 1 ≤ m) (hM : m ≤ M) (s : Str) :
    (specFrom m M s).length = ngramCount m M s.length := by
  induction s with
  | nil =>
    have := (ngramCount_le_aux (len := 0) hm (M + 1 - m)).1
    simp only [specFrom, List.length_nil, ngramCount]
    omega
  | cons c s ih =>
    simp only [specFrom, List.length_append, List.length_map, down_length _ _ hm, ih, List.length_cons]
    unfold ngramCount
    rw [ngramCount_succ hm]
    rw [show m + (M + 1 - m) - 1 = M by omega]
    omega

theorem ngramCount_le {m M : Nat} (hm : 1 ≤ m) (hM : m ≤ M) (len : Nat) :
    ngramCount m M len ≤ (M - m + 1) * len ∧
      (ngramCount m M len = (M - m + 1) * len ↔ len = 0 ∨ M = 1) := by
  have h := ngramCount_le_aux (len := len) hm (M + 1 - m)
  rw [show M - m + 1 = M + 1 - m by omega]
  refine ⟨h.1, h.2.trans ?_⟩
  omega

/-- C69: the number of n-grams, and the size hint of a new iterator, which is exact only for empty strings and for
unigrams. -/
theorem c69_count (s : Str) (minN maxN : Nat) (h1 : 1 ≤ minN) (h2 : minN ≤ maxN) :
    ∃ it gs, NGrams.new s minN maxN = .ok it ∧ it.collect it.fuel = .ok gs ∧
      gs.length = ngramCount minN maxN s.length ∧ it.sizeHint = (maxN - minN + 1) * s.length ∧
      (it.sizeHint ≤ gs.length ↔ s = [] ∨ maxN = 1) := by
  have hnew : NGrams.new s minN maxN = .ok (stateAt minN maxN [] s (min maxN s.length)) := by
    have h1 : ¬ minN = 0 := by omega
    simp [NGrams.new, h1, h2, stateAt]
  have h := ngrams_eq_specFrom s minN maxN h1 h2
  rw [ngrams, hnew] at h
  simp only [Res.ok_bind] at h
  have hh : (stateAt minN maxN [] s (min maxN s.length)).sizeHint = (maxN - minN + 1) * s.length := by
    simp [NGrams.sizeHint]
  refine ⟨_, _, hnew, h, specFrom_length h1 h2 s, hh, ?_⟩
  obtain ⟨h3, h4⟩ := ngramCount_le h1 h2 s.length
  rw [hh, specFrom_length h1 h2, ← List.length_eq_zero_iff, ← h4]
  omega


/-- C69, the iterator over n-grams and their indices: one item per n-gram, and one more for the whole string with
indexers that ask for it (floret). -/
theorem c69_indices {I : Type} [Indexer I] (ix : I) (f : NGram → List Nat)
    (hf : ∀ g, Indexer.indexNgram ix g = .ok (f g)) (s : Str) (minN maxN : Nat) (h1 : 1 ≤ minN) (h2 : minN ≤ maxN) :
    ∃ it l, NGrams.new s minN maxN = .ok it ∧ subwordIndicesWithNgrams ix s minN maxN = .ok l ∧
      l.length = ngramCount minN maxN s.length + (if Indexer.scope ix = .stringAndSubstrings then 1 else 0) ∧
      ngramsIndicesSizeHint it = (maxN - minN + 1) * s.length := by
  obtain ⟨it, gs, hit, hgs, hl, hh, _⟩ := c69_count s minN maxN h1 h2
  refine ⟨it, _, hit, subwordIndicesWithNgrams_eq hf s h1 h2, ?_, hh⟩
  unfold indexed
  simp only [List.length_map, List.length_append, specFrom_length h1 h2]
  cases Indexer.scope ix <;> simp [Nat.add_comm]

/-- Hypotheses of `c69_count` and `c69_indices`. -/
example := c69_count ['a', 'é', 'b'] 2 3 (by decide) (by decide)
example (ix : FloretIndexer) (h : FloretIndexer.new 10 2 7 = .ok ix) :=
  c69_indices ix _ (FloretIndexer.answers h) ['a', 'é', 'b'] 2 3 (by decide) (by decide)

example : ∃ it, NGrams.new ['a', 'é', 'b'] 2 3 = .ok it ∧ ngramCount 2 3 3 = 3 ∧ it.sizeHint = 6 := ⟨_, rfl, rfl, rfl⟩
example : ∃ ix : FloretIndexer, FloretIndexer.new 10 2 7 = .ok ix ∧
    ∃ f : NGram → List Nat, ∀ g, Indexer.indexNgram ix g = .ok (f g) :=
  ⟨_, rfl, _, FloretIndexer.answers (nb := 10) (nh := 2) (seed := 7) rfl⟩

/-! ## C70: which truncations are noticed -/

section
variable {T V S : Type} [Toml T] [WriteChunk V] [ReadChunk V] [VocabChunk V] [WriteChunk S]
  [ReadChunk S] [StorageChunk S]

/-- The part of a written file before the norms can be read whatever follows it. -/
theorem read_body {e : Embeddings T V S F32} (he : Storable e) (pre : Bytes) :
    ∃ body, (e.write pre.length).bytes = body ++ (writeOpt e.norms (pre.length + body.length)).bytes ∧
      ∀ post, readHead (T := T) (V := V) (pre ++ body ++ post) pre.length >>=
          (fun r => (readChunk : Rd S) (pre ++ body ++ post) r.2 >>= fun s => .ok ((r.1.1, r.1.2, s.1), s.2)) =
        .ok ((e.metadata, e.vocab, e.storage), pre.length + body.length) := by
  obtain ⟨hg, o1, o2, o3, o4, h1, h2, h3, h4, hb⟩ :=
    write_bytes e pre.length he.vocab.good he.storage.good
  have hm := readOptMetadata_readsAt e (StorageChunk.id_ne _) he.metadata pre.length
  rw [← h1] at hm
  have hh : ReadsAt (readHead (T := T) (V := V)) pre.length _ _ :=
    hm.bind (f := fun m => readChunk >>= fun v => pure (m, v))
      (ReadsAt.map (fun v => (e.metadata, v)) (he.vocab.readsAt _))
  have e2 : pre.length + ((Header.mk e.chunkIds).write.bytes ++ (writeOpt e.metadata o1).bytes).length = o2 := by
    simp only [W.size] at h1 h2
    simp; omega
  rw [e2] at hh
  have e3 : pre.length + ((Header.mk e.chunkIds).write.bytes ++ ((writeOpt e.metadata o1).bytes ++
      (writeChunk e.vocab o2).bytes)).length = o3 := by
    simp only [W.size, List.length_append] at *; omega
  have e4 : pre.length + ((Header.mk e.chunkIds).write.bytes ++ ((writeOpt e.metadata o1).bytes ++
        ((writeChunk e.vocab o2).bytes ++ (writeChunk e.storage o3).bytes))).length = o4 := by
    simp only [W.size, List.length_append] at *; omega
  refine ⟨(Header.mk e.chunkIds).write.bytes ++ ((writeOpt e.metadata o1).bytes ++
        ((writeChunk e.vocab o2).bytes ++ (writeChunk e.storage o3).bytes)), ?_, ?_⟩
  · rw [e4, hb]; simp [List.append_assoc]
  · intro post
    have r1 := hh pre ((writeChunk e.storage o3).bytes ++ post) rfl
    have r2 := he.storage.readsAt o3 (pre ++ ((Header.mk e.chunkIds).write.bytes ++ ((writeOpt e.metadata o1).bytes ++
        ((writeChunk e.vocab o2).bytes)))) post
        (by simp only [W.size, List.length_append] at *; omega)
    rw [e4]
    simp only [List.append_assoc] at r1 r2 ⊢
    rw [r1, e3]
    simp only [Res.ok_bind]
    rw [r2]
    simp only [Res.ok_bind]
    rw [h4]; rfl

/-- A cut before the end of the storage is an I/O error. -/
theorem read_cut_body {e : Embeddings T V S F32} (hs : EndsInside e.storage) {pre body : Bytes}
    (hr : readHead (T := T) (V := V) (pre ++ body) pre.length >>=
          (fun r => (readChunk : Rd S) (pre ++ body) r.2 >>= fun s => .ok ((r.1.1, r.1.2, s.1), s.2)) =
        .ok ((e.metadata, e.vocab, e.storage), pre.length + body.length)) {n : Nat}
    (hn : n < pre.length + body.length) :
    (read ((pre ++ body).take n) pre.length : Res (Embeddings T V S F32)) = .err .io := by
  generalize hD : pre ++ body = D at *
  have hDl : pre.length + body.length = D.length := by rw [← hD]; simp
  rw [hDl] at hr hn
  have hsplit : D = D.take n ++ D.drop n := (List.take_append_drop n D).symm
  have hhead : Mono (readHead (T := T) (V := V)) := by
    unfold readHead
    refine Mono.bind ?_ fun _ => VocabChunk.mono.bind fun _ => Mono.pure _
    unfold readOptMetadata
    refine Header.read_mono.bind fun h => ?_
    have := readMetadata_mono (T := T)
    mono_tac
  rw [read_eq]
  rcases hhead.mono (D.take n) (D.drop n) pre.length with hx | hx
  · rw [hx]; rfl
  · rw [← hsplit] at hx
    rw [← hx]
    cases hh : readHead (T := T) (V := V) D pre.length with
    | err x => rw [hh] at hr; cases hr
    | panic => rw [hh] at hr; cases hr
    | ok r =>
      rw [hh] at hr
      simp only [Res.ok_bind] at hr ⊢
      rcases (StorageChunk.mono (S := S)).mono (D.take n) (D.drop n) r.2 with hx2 | hx2
      · rw [hx2]; rfl
      · rw [← hsplit] at hx2
        rw [← hx2]
        cases hc : (readChunk : Rd S) D r.2 with
        | err x => rw [hc] at hr; cases hr
        | panic => rw [hc] at hr; cases hr
        | ok q =>
          exfalso
          rw [hc] at hr
          simp only [Res.ok_bind, Res.ok.injEq, Prod.mk.injEq] at hr
          obtain ⟨⟨_, _, hs1⟩, hp1⟩ := hr
          have hq : q = (e.storage, D.length) := by rw [← hs1, ← hp1]
          rw [hx2, hq] at hc
          have := hs _ _ _ hc
          simp only [List.length_take] at this
          omega

theorem NdNorms.endsInside {a : NdNorms F32} (h : a.inner ≠ []) {d : Bytes} {pos p : Nat}
    (hr : readNorms d pos = .ok (a, p)) : p ≤ d.length := by
  unfold readNorms at hr
  obtain ⟨_, p1, h1, hr⟩ := Rd.bind_ok.mp hr
  obtain ⟨_, p2, h2, hr⟩ := Rd.bind_ok.mp hr
  obtain ⟨len, p3, h3, hr⟩ := Rd.bind_ok.mp hr
  obtain ⟨_, p4, h4, hr⟩ := Rd.bind_ok.mp hr
  obtain ⟨_, p5, h5, hr⟩ := Rd.bind_ok.mp hr
  obtain ⟨_, p6, h6, hr⟩ := Rd.bind_ok.mp hr
  obtain ⟨_, p7, h7, hr⟩ := Rd.bind_ok.mp hr
  obtain ⟨data, p8, hd, hr⟩ := Rd.bind_ok.mp hr
  cases hr
  unfold readF32s at hd
  obtain ⟨bs, p9, hb, hd⟩ := Rd.bind_ok.mp hd
  cases hd
  obtain ⟨rfl, rfl, hlen⟩ := readExact_ok hb
  refine hlen ?_
  intro h0
  apply h
  have : len = 0 := by omega
  subst this
  rfl

/-- C70: of written embeddings with data and norms, only the first `n` bytes are present. It is an I/O error if the
storage is incomplete; if only the norms are incomplete, the embeddings are read without norms. -/
theorem c70_norms (e : Embeddings T V S F32) (he : Storable e) (hs : EndsInside e.storage) (ns : NdNorms F32)
    (hn : e.norms = some ns) (hne : ns.inner ≠ []) (pre : Bytes) :
    ∃ body : Bytes, (e.write pre.length).bytes = body ++ (writeChunk ns (pre.length + body.length)).bytes ∧ ∀ n,
      (n < pre.length + body.length →
        (read ((pre ++ (e.write pre.length).bytes).take n) pre.length : Res (Embeddings T V S F32)) = .err .io) ∧
      (pre.length + body.length ≤ n → n < pre.length + (e.write pre.length).bytes.length →
        (read ((pre ++ (e.write pre.length).bytes).take n) pre.length : Res (Embeddings T V S F32)) =
          .ok { e with norms := none }) ∧
      (pre.length + (e.write pre.length).bytes.length ≤ n →
        (read ((pre ++ (e.write pre.length).bytes).take n) pre.length : Res (Embeddings T V S F32)) = .ok e) := by
  obtain ⟨body, hb, hr⟩ := read_body he pre
  have hb' := hb
  rw [hn] at hb'
  refine ⟨body, hb', fun n => ⟨fun h => ?_, fun h1 h2 => ?_, fun h => ?_⟩⟩
  · have h0 := hr []
    rw [List.append_nil] at h0
    have hx := read_cut_body hs h0 h
    rw [hb, ← List.append_assoc, List.take_append_of_le_length (by simp; omega)]
    exact hx
  · generalize hN : (writeOpt e.norms (pre.length + body.length)).bytes = N at hb
    have hsplit : (pre ++ (e.write pre.length).bytes).take n =
        pre ++ body ++ N.take (n - (pre.length + body.length)) := by
      rw [hb, ← List.append_assoc, List.take_append]
      rw [List.take_of_length_le (by simp; omega)]
      simp
    rw [read_eq, hsplit, hr]
    simp only [Res.ok_bind]
    have hfull : readNorms (pre ++ body ++ N) (pre.length + body.length) =
        .ok (ns, pre.length + body.length + N.length) := by
      have := (he.norms ns hn) (pre ++ body) []
      rw [List.append_nil] at this
      have h3 := this.2
      rw [hn] at hN
      have hN : (writeChunk ns (pre ++ body).length).bytes = N := by
        rw [← hN, List.length_append]; rfl
      rw [hN, List.length_append] at h3
      exact h3
    have hsp : N = N.take (n - (pre.length + body.length)) ++ N.drop (n - (pre.length + body.length)) :=
      (List.take_append_drop _ N).symm
    rcases readNorms_mono.mono (pre ++ body ++ N.take (n - (pre.length + body.length)))
        (N.drop (n - (pre.length + body.length))) (pre.length + body.length) with hx | hx
    · rw [hx]; rfl
    · exfalso
      rw [List.append_assoc (pre ++ body), ← hsp, hfull] at hx
      have := NdNorms.endsInside hne hx.symm
      rw [hb] at h2
      simp only [List.length_append, List.length_take] at this h2
      omega
  · rw [List.take_of_length_le (by simp; omega)]
    have := (c15_round_trip e he pre [] (by intro _; decide)).2
    rwa [List.append_nil] at this

/-- C70, without norms: every truncation is an I/O error. -/
theorem c70_no_norms (e : Embeddings T V S F32) (he : Storable e) (hs : EndsInside e.storage) (hn : e.norms = none)
    (pre : Bytes) (n : Nat) :
    (n < pre.length + (e.write pre.length).bytes.length →
      (read ((pre ++ (e.write pre.length).bytes).take n) pre.length : Res (Embeddings T V S F32)) = .err .io) ∧
    (pre.length + (e.write pre.length).bytes.length ≤ n →
      (read ((pre ++ (e.write pre.length).bytes).take n) pre.length : Res (Embeddings T V S F32)) = .ok e) := by
  refine ⟨fun h => c18_partial e he hn hs pre n (by simpa using h), fun h => ?_⟩
  rw [List.take_of_length_le (by simp; omega)]
  have := (c15_round_trip e he pre [] (by intro _; decide)).2
  rwa [List.append_nil] at this

end


/-! ## C71: what lookups in memory-mapped storages read -/

theorem StorageWrap.endsInside_ndArray {a : NdArray F32} (h : a.inner.nrows * a.inner.cols ≠ 0) :
    EndsInside (StorageWrap.ndArray a) := by
  intro d pos p hr
  have hr : readStorageWrap d pos = .ok (.ndArray a, p) := hr
  unfold readStorageWrap at hr
  obtain ⟨id, p1, h1, hr⟩ := Rd.bind_ok.mp hr
  cases id <;> first | (obtain ⟨x, p2, h2, h3⟩ := Rd.bind_ok.mp hr; cases h3; exact NdArray.endsInside h _ _ _ h2) | (try cases hr)
  obtain ⟨x, p2, h2, h3⟩ := Rd.bind_ok.mp hr; cases h3

attribute [local instance] exampleToml in
/-- The hypotheses of C70 are met. -/
example : Storable exampleEmbeddings ∧ EndsInside exampleEmbeddings.storage ∧
    exampleEmbeddings.norms = some ⟨[5, 6]⟩ :=
  ⟨exampleEmbeddings_storable, StorageWrap.endsInside_ndArray (by decide), rfl⟩

attribute [local instance] exampleToml in
/-- `c70_norms` and `c70_no_norms` applied to the example with and without its norms. -/
example := @c70_norms _ _ _ exampleToml _ _ _ _ _ _ exampleEmbeddings exampleEmbeddings_storable
  (StorageWrap.endsInside_ndArray (by decide)) _ rfl (by decide) [1, 2, 3]
attribute [local instance] exampleToml in
example := @c70_no_norms _ _ _ exampleToml _ _ _ _ _ _ { exampleEmbeddings with norms := none }
  (@Storable.mk _ _ _ exampleToml _ _ _ _ _ exampleEmbeddings_storable.metadata
    exampleEmbeddings_storable.vocab exampleEmbeddings_storable.storage (by intro n h; cases h))
  (StorageWrap.endsInside_ndArray (by decide)) rfl [1, 2, 3] 20

/-- A byte of a mapped file; behind the end of the file there are zeros. -/
def mappedByte (d : Bytes) (k : Nat) : UInt8 := d.getD k 0

/-- The `f32` (as bits) in little-endian order at an offset of a mapped file. -/
def mappedF32 (d : Bytes) (k : Nat) : F32 :=
  UInt32.ofNat ((mappedByte d k).toNat + 2 ^ 8 * (mappedByte d (k + 1)).toNat + 2 ^ 16 * (mappedByte d (k + 2)).toNat +
    2 ^ 24 * (mappedByte d (k + 3)).toNat)

theorem zeroPadded_eq (d : Bytes) (s n : Nat) :
    (d.drop s).take n ++ List.replicate (n - ((d.drop s).take n).length) 0 =
      (List.range n).map fun k => mappedByte d (s + k) := by
  apply List.ext_getElem
  · simp; omega
  · intro k h1 h2
    simp only [List.length_map, List.length_range] at h2
    rw [List.getElem_append]
    unfold mappedByte
    split
    · next h => simp at h; simp [List.getD_eq_getElem?_getD, List.getElem?_eq_getElem (show s + k < d.length by omega)]
    · next h =>
      simp only [List.length_take, List.length_drop] at h
      simp [List.getD_eq_getElem?_getD, List.getElem?_eq_none (show d.length ≤ s + k by omega)]

theorem decodeF32s_getElem? (n : Nat) (bs : Bytes) (j : Nat) :
    (decodeF32s n bs)[j]? = if j < n then some (f32Val ((bs.drop (4 * j)).take 4)) else none := by
  induction n generalizing bs j with
  | zero => simp [decodeF32s]
  | succ n ih =>
    cases j with
    | zero => simp [decodeF32s]
    | succ j =>
      rw [decodeF32s, List.getElem?_cons_succ, ih]
      simp only [List.drop_drop, Nat.add_lt_add_iff_right]
      rw [show 4 + 4 * j = 4 * (j + 1) by omega]

theorem decodeF32s_mapped (d : Bytes) (s c : Nat) :
    decodeF32s c ((List.range (4 * c)).map fun k => mappedByte d (s + k)) =
      (List.range c).map fun j => mappedF32 d (s + 4 * j) := by
  apply List.ext_getElem?
  intro j
  rw [decodeF32s_getElem?]
  by_cases h : j < c
  · rw [if_pos h]
    have : (((List.range (4 * c)).map fun k => mappedByte d (s + k)).drop (4 * j)).take 4 =
        [mappedByte d (s + 4 * j), mappedByte d (s + 4 * j + 1), mappedByte d (s + 4 * j + 2),
          mappedByte d (s + 4 * j + 3)] := by
      apply List.ext_getElem
      · simp; omega
      · intro k h1 h2
        simp only [List.length_cons, List.length_nil] at h2
        match k with
        | 0 | 1 | 2 | 3 => simp [Nat.add_assoc]
        | k + 4 => omega
    rw [this]
    simp only [List.getElem?_map, List.getElem?_range h, Option.map_some, f32Val, leVal, mappedF32, Option.some.injEq]
    congr 1
    omega
  · rw [if_neg h, List.getElem?_eq_none (by simp; omega)]

theorem Mmap.slice_eq (m : Mmap) (start n : Nat) (h : start + n ≤ m.len) :
    m.slice start n = if n = 0 ∨ m.off + start + n ≤ pageEnd m.file.length then
      .ok ((List.range n).map fun k => mappedByte m.file (m.off + start + k)) else .panic := by
  unfold Mmap.slice
  by_cases h0 : n = 0
  · subst h0; simp
  · simp only [h0, if_false, false_or, h, true_and]
    split
    · rw [zeroPadded_eq]
    · rfl

theorem readNdArrayHead_aligned {d : Bytes} {pos p : Nat} {r : Nat × Nat} (h : readNdArrayHead d pos = .ok (r, p)) :
    p % 4 = 0 := by
  unfold readNdArrayHead at h
  obtain ⟨_, p1, _, h⟩ := Rd.bind_ok.mp h
  obtain ⟨_, p2, _, h⟩ := Rd.bind_ok.mp h
  obtain ⟨_, p3, _, h⟩ := Rd.bind_ok.mp h
  obtain ⟨_, p4, _, h⟩ := Rd.bind_ok.mp h
  obtain ⟨_, p5, _, h⟩ := Rd.bind_ok.mp h
  obtain ⟨_, p6, hp, h⟩ := Rd.bind_ok.mp h
  cases hp
  obtain ⟨_, p7, hs, h⟩ := Rd.bind_ok.mp h
  cases hs
  cases h
  unfold padding
  omega

/-- C71, dense arrays: the mapped data start at a multiple of four, and a lookup crashes exactly if there is no such
row or the row reaches beyond the last page of the file; otherwise it returns the floats in the file, with zeros in
place of what is missing. -/
theorem c71_array (d : Bytes) (pos p rows cols : Nat) (m : MmapArray) (h : mmapNdArray d pos = .ok (m, p))
    (hs : shape m = (rows, cols)) :
    ∃ start, start % 4 = 0 ∧ p = start + 4 * (rows * cols) ∧ ∀ i,
      ((rows ≤ i ∨ cols ≠ 0 ∧ pageEnd d.length < start + 4 * ((i + 1) * cols)) → embedding m i = .panic) ∧
      (i < rows → (cols = 0 ∨ start + 4 * ((i + 1) * cols) ≤ pageEnd d.length) →
        embedding m i = .ok ((List.range cols).map fun j => mappedF32 d (start + 4 * (i * cols + j)))) := by
  unfold mmapNdArray at h
  obtain ⟨⟨rows', cols'⟩, p1, hh, h⟩ := Rd.bind_ok.mp h
  dsimp only at h
  obtain ⟨_, p2, ha, h2⟩ := Rd.bind_ok.mp h
  obtain ⟨ha', hp2⟩ := Rd.assert_ok.mp ha
  subst p2
  obtain ⟨mp, p3, hm, h3⟩ := Rd.bind_ok.mp h2
  cases h3
  obtain ⟨rfl, rfl⟩ := mapRegion_ok hm
  cases hs
  refine ⟨p1, readNdArrayHead_aligned hh, by dsimp only; omega, fun i => ?_⟩
  show (_ → MmapArray.row _ i = _) ∧ (_ → _ → MmapArray.row _ i = _)
  unfold MmapArray.row
  dsimp only
  by_cases hi : i < rows'
  · have hic : i * cols' + cols' ≤ rows' * cols' := by
      have := Nat.mul_le_mul_right cols' (show i + 1 ≤ rows' from hi)
      rwa [Nat.add_mul, Nat.one_mul] at this
    rw [if_pos hi, Mmap.slice_eq _ _ _ (by dsimp only; omega)]
    dsimp only
    have e : (i + 1) * cols' = i * cols' + cols' := by rw [Nat.add_mul, Nat.one_mul]
    rw [e]
    constructor
    · intro h
      rw [if_neg (by omega)]; rfl
    · intro _ h
      rw [if_pos (by omega)]
      show Res.ok (decodeF32s cols' _) = _
      rw [decodeF32s_mapped]
      simp only [Nat.mul_add, Nat.add_assoc]
  · rw [if_neg hi]
    exact ⟨fun _ => rfl, fun h => absurd h hi⟩

/-- `c71_array` applied to a file that ends inside the second row. -/
example := c71_array ((writeChunk (NdArray.mk (⟨2, [[1, 2], [3, 4]]⟩ : Mat F32)) 0).bytes.take 40) 0 48 2 2
  ⟨⟨(writeChunk (NdArray.mk (⟨2, [[1, 2], [3, 4]]⟩ : Mat F32)) 0).bytes.take 40, 32, 16⟩, 2, 2⟩ (by decide +kernel) rfl

example : ∃ m, mmapNdArray ((writeChunk (NdArray.mk (⟨2, [[1, 2], [3, 4]]⟩ : Mat F32)) 0).bytes.take 40) 0 =
    .ok (m, 48) ∧ shape m = (2, 2) :=
  ⟨⟨⟨(writeChunk (NdArray.mk (⟨2, [[1, 2], [3, 4]]⟩ : Mat F32)) 0).bytes.take 40, 32, 16⟩, 2, 2⟩, by decide +kernel, rfl⟩


theorem mappedByte_append_zeros (d : Bytes) (n k : Nat) :
    mappedByte (d ++ List.replicate n 0) k = mappedByte d k := by
  unfold mappedByte
  simp only [List.getD_eq_getElem?_getD]
  rcases Nat.lt_or_ge k d.length with h | h
  · rw [List.getElem?_append_left h]
  · rw [List.getElem?_append_right h, List.getElem?_eq_none h, List.getElem?_replicate]
    split <;> rfl

theorem Mmap.slice_zeros {d : Bytes} {off len n start k : Nat} (h : off + len ≤ pageEnd d.length) :
    Mmap.slice ⟨d ++ List.replicate n 0, off, len⟩ start k = Mmap.slice ⟨d, off, len⟩ start k := by
  by_cases hs : start + k ≤ len
  · rw [Mmap.slice_eq _ _ _ hs, Mmap.slice_eq _ _ _ hs]
    dsimp only
    have h1 : pageEnd d.length ≤ pageEnd (d ++ List.replicate n 0).length := by
      unfold pageEnd
      exact Nat.mul_le_mul_right _ (Nat.div_le_div_right (by simp; omega))
    rw [if_pos (.inr (by omega)), if_pos (.inr (by omega))]
    simp only [mappedByte_append_zeros]
  · unfold Mmap.slice
    dsimp only
    rw [if_neg (c := start + k ≤ len ∧ _) (by omega), if_neg (c := start + k ≤ len ∧ _) (by omega)]

/-- C71, quantized arrays: if the file lacks a part of the codes but the last page of the file covers them, the
mapped storage behaves like that of the file completed with zeros. -/
theorem c71_quantized [Scalar F32] (d : Bytes) (pos p : Nat) (m : MmapQuantizedArray)
    (h : mmapQuantizedArray d pos = .ok (m, p)) (hp : p ≤ pageEnd d.length) (n : Nat) :
    ∃ m', mmapQuantizedArray (d ++ List.replicate n 0) pos = .ok (m', p) ∧ SameRows m m' := by
  unfold mmapQuantizedArray at h
  obtain ⟨⟨r, norms⟩, p1, hh, h⟩ := Rd.bind_ok.mp h
  dsimp only at h
  obtain ⟨_, p2, ha, h2⟩ := Rd.bind_ok.mp h
  obtain ⟨ha', hp2⟩ := Rd.assert_ok.mp ha
  subst p2
  obtain ⟨mp, p3, hm, h3⟩ := Rd.bind_ok.mp h2
  cases h3
  obtain ⟨rfl, rfl⟩ := mapRegion_ok hm
  have hh' : readQuantizedHead (d ++ List.replicate n 0) pos = .ok ((r, norms), p1) := by
    rcases readQuantizedHead_mono.mono d (List.replicate n 0) pos with hx | hx
    · rw [hx] at hh; cases hh
    · rw [hx, hh]
  refine ⟨⟨r.quantizer, ⟨d ++ List.replicate n 0, p1, r.nEmbeddings * r.quantizer.quantizedLen⟩, norms⟩, ?_, ?_⟩
  · unfold mmapQuantizedArray
    rw [bind_apply, hh']
    simp only [Res.ok_bind]
    rw [bind_apply, Rd.lift_apply, ha']
    unfold mapRegion at hm
    split at hm
    · next hle =>
      simp only [Res.assert, if_true, Res.map_ok, Res.ok_bind]
      rw [bind_apply, mapRegion, if_pos hle]; rfl
    · cases hm
  · have hcode : MmapQuantizedArray.code ⟨r.quantizer, ⟨d ++ List.replicate n 0, p1,
          r.nEmbeddings * r.quantizer.quantizedLen⟩, norms⟩ =
        MmapQuantizedArray.code ⟨r.quantizer, ⟨d, p1, r.nEmbeddings * r.quantizer.quantizedLen⟩, norms⟩ := by
      funext i
      unfold MmapQuantizedArray.code
      dsimp only
      rw [Mmap.slice_zeros hp]; rfl
    have hsel : MmapQuantizedArray.select ⟨r.quantizer, ⟨d ++ List.replicate n 0, p1,
          r.nEmbeddings * r.quantizer.quantizedLen⟩, norms⟩ =
        MmapQuantizedArray.select ⟨r.quantizer, ⟨d, p1, r.nEmbeddings * r.quantizer.quantizedLen⟩, norms⟩ := by
      funext is
      unfold MmapQuantizedArray.select
      rw [hcode]
    refine ⟨rfl, fun i => ?_, fun is => ?_⟩
    · show quantizedRow _ _ _ i = quantizedRow _ _ _ i
      rw [hcode]
    · show quantizedRows _ _ _ is = quantizedRows _ _ _ is
      rw [hsel]

/-- Hypotheses of `c71_quantized`: a file without its last byte, which is still on the last page. -/
example : ∃ m p, mmapQuantizedArray ((writeChunk exampleQuantized 0).bytes.dropLast) 0 = .ok (m, p) ∧
    p ≤ pageEnd (writeChunk exampleQuantized 0).bytes.dropLast.length := by
  cases h : mmapQuantizedArray ((writeChunk exampleQuantized 0).bytes.dropLast) 0 with
  | ok r => exact ⟨r.1, r.2, rfl, by
      have : (match mmapQuantizedArray ((writeChunk exampleQuantized 0).bytes.dropLast) 0 with
        | .ok r => decide (r.2 ≤ pageEnd (writeChunk exampleQuantized 0).bytes.dropLast.length) | _ => false) = true := by
        decide +kernel
      rw [h] at this
      simpa using this⟩
  | err x => exact absurd h (by
      have : (match mmapQuantizedArray ((writeChunk exampleQuantized 0).bytes.dropLast) 0 with
        | .err _ => false | _ => true) = true := by decide +kernel
      intro h; rw [h] at this; cases this)
  | panic => exact absurd h (by
      have : (match mmapQuantizedArray ((writeChunk exampleQuantized 0).bytes.dropLast) 0 with
        | .panic => false | _ => true) = true := by decide +kernel
      intro h; rw [h] at this; cases this)

end FF
