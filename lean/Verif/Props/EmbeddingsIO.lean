import Verif.Lemmas.EmbeddingsIO

/-!
# Properties of whole embeddings files (C06, C15, C17, C18, C19, C20, C21, C37)
-/

namespace FF

open Rd Embeddings Res

section
variable {T V S : Type} [Toml T] [WriteChunk V] [WriteChunk S]

/-! ## C06 -/

/-- C06: `write_embeddings_len` is the number of bytes written, at every offset, whenever the chunk lengths
of vocabulary and storage are right (C04, C05). -/
theorem c06_write_len (e : Embeddings T V S F32) (hv : LenCorrect e.vocab) (hs : LenCorrect e.storage)
    (off : Nat) : (e.write off).status = .ok () ∧ (e.write off).bytes.length = e.writeLen off := by
  obtain ⟨hg, o1, o2, o3, o4, h1, h2, h3, h4, hb⟩ :=
    write_bytes e off (fun o => (hv o).1) (fun o => (hs o).1)
  refine ⟨hg, ?_⟩
  have e1 : (Header.mk e.chunkIds).write.bytes.length = chunkLen (Header.mk e.chunkIds) (off + 0) := by
    rw [Header.write_bytes]
    show _ = 4 + 4 + 4 + e.chunkIds.length * 4
    simp [magic, List.length_flatMap, List.map_const', List.sum_replicate_nat]
    omega
  have e2 : (writeOpt e.metadata o1).bytes.length = lenOpt e.metadata o1 := by
    cases e.metadata with
    | none => rfl
    | some m => exact (c05_metadata m o1).2.1
  have e3 := (hv o2).2.1
  have e4 := (hs o3).2.1
  have e5 : (writeOpt e.norms o4).bytes.length = lenOpt e.norms o4 := by
    cases e.norms with
    | none => rfl
    | some n => exact (c05_norms n o4).2.1
  simp only [W.size] at h1 h2 h3 h4
  rw [e1] at h1
  rw [e2] at h2
  rw [e3] at h3
  rw [e4] at h4
  rw [hb]
  simp only [List.length_append]
  rw [e1, e2, e3, e4, e5]
  unfold Embeddings.writeLen
  subst h1 h2 h3 h4
  simp only [Nat.zero_add, Nat.add_zero, Nat.add_assoc]

/-! ## C19 -/

/-- C19: whatever the point at which the underlying writer fails, what it accepted is a prefix of the complete
output; an error is returned if something is missing, and success only if everything was accepted. -/
theorem c19_failing_writer (e : Embeddings T V S F32) (hv : LenCorrect e.vocab) (hs : LenCorrect e.storage)
    (off cap : Nat) :
    ((e.write off).run cap).1 <+: (e.write off).bytes ∧
    (((e.write off).run cap).2 = .ok () ∧ ((e.write off).run cap).1 = (e.write off).bytes ∨
      ((e.write off).run cap).2 = .err .io ∧ ((e.write off).run cap).1.length = cap ∧
        cap < (e.write off).bytes.length) := by
  have hg := (c06_write_len e hv hs off).1
  rw [W.run_eq]
  refine ⟨List.take_prefix _ _, ?_⟩
  by_cases h : (e.write off).bytes.length ≤ cap
  · left
    exact ⟨by rw [if_pos h, hg], List.take_of_length_le h⟩
  · right
    refine ⟨by rw [if_neg h], ?_, by omega⟩
    simp; omega

end

section
variable {T V S : Type} [Toml T] [WriteChunk V] [ReadChunk V] [VocabChunk V] [WriteChunk S]
  [ReadChunk S] [StorageChunk S]

/-- What the properties below ask of the embeddings that are written: each part survives the round trip of
its own chunk (C07–C14 say when it does). -/
structure Storable (e : Embeddings T V S F32) : Prop where
  metadata : ∀ m ∈ e.metadata, RoundTrips m
  vocab : RoundTrips e.vocab
  storage : RoundTrips e.storage
  norms : ∀ n ∈ e.norms, RoundTrips n

/-- Reading a written file up to the norms. -/
theorem read_written {e : Embeddings T V S F32} (he : Storable e) (pre : Bytes) :
    ∃ p, p + (writeOpt e.norms p).bytes.length = pre.length + (e.write pre.length).bytes.length ∧
      (∃ pre', pre'.length = p ∧
        pre ++ (e.write pre.length).bytes = pre' ++ (writeOpt e.norms p).bytes) ∧
      ∀ post, readHead (T := T) (V := V) (pre ++ (e.write pre.length).bytes ++ post) pre.length >>=
          (fun r => (readChunk : Rd S) (pre ++ (e.write pre.length).bytes ++ post) r.2 >>= fun s =>
            .ok ((r.1.1, r.1.2, s.1), s.2)) =
        .ok ((e.metadata, e.vocab, e.storage), p) := by
  obtain ⟨hg, o1, o2, o3, o4, h1, h2, h3, h4, hb⟩ :=
    write_bytes e pre.length he.vocab.good he.storage.good
  have hm := readOptMetadata_readsAt e (StorageChunk.id_ne _) he.metadata pre.length
  rw [← h1] at hm
  have hh : ReadsAt (readHead (T := T) (V := V)) pre.length _ _ :=
    hm.bind (f := fun m => readChunk >>= fun v => pure (m, v))
      (ReadsAt.map (fun v => (e.metadata, v)) (he.vocab.readsAt _))
  have e2 : pre.length + ((Header.mk e.chunkIds).write.bytes ++ (writeOpt e.metadata o1).bytes).length = o2 := by
    simp only [W.size] at h1 h2
    simp; omega
  rw [e2] at hh
  refine ⟨o4, ?_, ⟨pre ++ ((Header.mk e.chunkIds).write.bytes ++ ((writeOpt e.metadata o1).bytes ++
        ((writeChunk e.vocab o2).bytes ++ (writeChunk e.storage o3).bytes))), ?_, ?_⟩, ?_⟩
  · rw [hb]; simp only [W.size, List.length_append] at *; omega
  · simp only [W.size, List.length_append] at *; omega
  · rw [hb]; simp [List.append_assoc]
  · intro post
    have r1 := hh pre ((writeChunk e.storage o3).bytes ++ ((writeOpt e.norms o4).bytes ++ post)) rfl
    have r2 := he.storage.readsAt o3 (pre ++ ((Header.mk e.chunkIds).write.bytes ++ ((writeOpt e.metadata o1).bytes ++
        ((writeChunk e.vocab o2).bytes)))) ((writeOpt e.norms o4).bytes ++ post)
        (by simp only [W.size, List.length_append] at *; omega)
    rw [hb]
    simp only [List.append_assoc] at r1 r2 ⊢
    rw [r1]
    have e3 : pre.length + ((Header.mk e.chunkIds).write.bytes ++ ((writeOpt e.metadata o1).bytes ++
        (writeChunk e.vocab o2).bytes)).length = o3 := by
      simp only [W.size, List.length_append] at *; omega
    rw [e3]
    simp only [Res.ok_bind]
    rw [r2]
    simp only [Res.ok_bind]
    rw [h4]; rfl

omit [WriteChunk V] [VocabChunk V] [WriteChunk S] [StorageChunk S] in
theorem read_eq (d : Bytes) (pos : Nat) : (read d pos : Res (Embeddings T V S F32)) =
    ((readHead (T := T) (V := V) d pos >>= fun r => (readChunk : Rd S) d r.2 >>= fun s =>
      .ok ((r.1.1, r.1.2, s.1), s.2)) >>= fun r => orNone (readNorms d r.2) >>= fun n =>
        .ok ⟨r.1.1, r.1.2.2, r.1.2.1, n.map (·.1)⟩) := by
  unfold Embeddings.read Embeddings.readWith
  cases readHead (T := T) (V := V) d pos with
  | ok r =>
    obtain ⟨⟨m, v⟩, p⟩ := r
    simp only [Res.ok_bind]
    cases (readChunk : Rd S) d p with
    | ok r => rfl
    | err => rfl
    | panic => rfl
  | err => rfl
  | panic => rfl

theorem readNorms_none {d : Bytes} {p : Nat} (h : u32At d p ≠ some 6) : ∃ x, readNorms d p = .err x := by
  unfold readNorms
  rw [bind_apply]
  cases hu : u32At d p with
  | none => rw [ensureChunkType_none hu]; exact ⟨_, rfl⟩
  | some c =>
    rw [ensureChunkType_wrong hu (by intro e; exact h (by rw [hu, e]; rfl))]; exact ⟨_, rfl⟩

/-! ## C15 -/

/-- C15: written at any position and read from there, the embeddings come back. Trailing data (`post`) does
not matter, except that embeddings without norms must not be followed by bytes that look like the start of a
norms chunk. -/
theorem c15_round_trip (e : Embeddings T V S F32) (he : Storable e) (pre post : Bytes)
    (hp : e.norms = none → u32At post 0 ≠ some 6) :
    (e.write pre.length).status = .ok () ∧
    (read (pre ++ (e.write pre.length).bytes ++ post) pre.length : Res (Embeddings T V S F32)) = .ok e := by
  refine ⟨(write_bytes e pre.length he.vocab.good he.storage.good).1, ?_⟩
  obtain ⟨p, hlen, ⟨pre', hl, hpre⟩, hr⟩ := read_written he pre
  rw [read_eq, hr]
  simp only [Res.ok_bind]
  cases hn : e.norms with
  | some n =>
    have := (he.norms n hn).readsAt p pre' post hl
    rw [hn] at hpre
    rw [hpre, List.append_assoc]
    have e1 : readNorms (pre' ++ ((writeOpt (some n) p).bytes ++ post)) p = _ := this
    rw [e1]
    show Res.ok (Embeddings.mk _ _ _ (some n)) = _
    rw [← hn]
  | none =>
    rw [hn] at hpre
    have hpre : pre ++ (e.write pre.length).bytes = pre' ++ [] := hpre
    have hu : u32At (pre ++ (e.write pre.length).bytes ++ post) p ≠ some 6 := by
      rw [hpre, ← hl, List.append_nil]
      have : u32At (pre' ++ post) pre'.length = u32At post 0 := by
        unfold u32At sliceAt
        simp
      rw [this]; exact hp hn
    obtain ⟨x, hx⟩ := readNorms_none hu
    rw [hx]
    show Res.ok (Embeddings.mk _ _ _ none) = _
    rw [← hn]

/-! ## C17 -/

/-- C17: of a written file only the first `n` bytes are present (anything may precede it). Reading does not
panic; it returns an I/O error, or the embeddings that were written, or those without their norms. -/
theorem c17_truncated (e : Embeddings T V S F32) (he : Storable e) (pre : Bytes) (n : Nat) :
    (read ((pre ++ (e.write pre.length).bytes).take n) pre.length : Res (Embeddings T V S F32)) = .err .io ∨
    (read ((pre ++ (e.write pre.length).bytes).take n) pre.length : Res (Embeddings T V S F32)) = .ok e ∨
    (read ((pre ++ (e.write pre.length).bytes).take n) pre.length : Res (Embeddings T V S F32)) =
      .ok { e with norms := none } := by
  obtain ⟨p, hlen, ⟨pre', hl, hpre⟩, hr⟩ := read_written he pre
  have hfull := (c15_round_trip e he pre [] (by intro _; decide)).2
  have hr := hr []
  rw [read_eq, List.append_nil] at hfull
  rw [List.append_nil] at hr
  generalize hD : pre ++ (e.write pre.length).bytes = D at *
  have hsplit : D = D.take n ++ D.drop n := (List.take_append_drop n D).symm
  have hmono : Mono ((readHead (T := T) (V := V) >>= fun r => (readChunk : Rd S) >>= fun s =>
      pure (r.1, r.2, s)) : Rd (Option (Metadata T) × V × S)) := by
    refine Mono.bind ?_ fun _ => StorageChunk.mono.bind fun _ => Mono.pure _
    unfold readHead
    refine Mono.bind ?_ fun _ => VocabChunk.mono.bind fun _ => Mono.pure _
    unfold readOptMetadata
    refine Header.read_mono.bind fun h => ?_
    have := readMetadata_mono (T := T)
    mono_tac
  have hsame : ∀ d pos, ((readHead (T := T) (V := V) >>= fun r => (readChunk : Rd S) >>= fun s =>
      pure (r.1, r.2, s)) : Rd (Option (Metadata T) × V × S)) d pos =
      (readHead (T := T) (V := V) d pos >>= fun r => (readChunk : Rd S) d r.2 >>= fun s =>
      .ok ((r.1.1, r.1.2, s.1), s.2)) := fun _ _ => rfl
  rw [read_eq, ← hsame]
  rw [← hsame] at hr hfull
  rcases hmono.mono (D.take n) (D.drop n) pre.length with hx | hx
  · left; rw [hx]; rfl
  · right
    rw [← hsplit] at hx
    rw [← hx, hr]
    simp only [Res.ok_bind]
    rcases readNorms_mono.mono (D.take n) (D.drop n) p with hn | hn
    · right; rw [hn]; rfl
    · left
      rw [← hsplit] at hn
      rw [← hn]
      rw [hr] at hfull
      simpa only [Res.ok_bind] using hfull

/-- C17 for any data, not only for written files: reading only the first `n` bytes gives an I/O error, or what reading all of
them gives (also if that is a panic), or embeddings without norms; in the last case reading all bytes differs in the norms only, or
panics in the norms. -/
theorem c17_any (d : Bytes) (n pos : Nat) :
    (read (d.take n) pos : Res (Embeddings T V S F32)) = .err .io ∨
    (read (d.take n) pos : Res (Embeddings T V S F32)) = read d pos ∨
    ∃ e : Embeddings T V S F32, e.norms = none ∧ read (d.take n) pos = .ok e ∧
      ((read d pos : Res (Embeddings T V S F32)) = .panic ∨
        ∃ ns, (read d pos : Res (Embeddings T V S F32)) = .ok { e with norms := ns }) := by
  have hsplit : d = d.take n ++ d.drop n := (List.take_append_drop n d).symm
  have hmono : Mono ((readHead (T := T) (V := V) >>= fun r => (readChunk : Rd S) >>= fun s =>
      pure (r.1, r.2, s)) : Rd (Option (Metadata T) × V × S)) := by
    refine Mono.bind ?_ fun _ => StorageChunk.mono.bind fun _ => Mono.pure _
    unfold readHead
    refine Mono.bind ?_ fun _ => VocabChunk.mono.bind fun _ => Mono.pure _
    unfold readOptMetadata
    refine Header.read_mono.bind fun h => ?_
    have := readMetadata_mono (T := T)
    mono_tac
  have hsame : ∀ d pos, ((readHead (T := T) (V := V) >>= fun r => (readChunk : Rd S) >>= fun s =>
      pure (r.1, r.2, s)) : Rd (Option (Metadata T) × V × S)) d pos =
      (readHead (T := T) (V := V) d pos >>= fun r => (readChunk : Rd S) d r.2 >>= fun s =>
      .ok ((r.1.1, r.1.2, s.1), s.2)) := fun _ _ => rfl
  rw [read_eq, read_eq, ← hsame, ← hsame]
  rcases hmono.mono (d.take n) (d.drop n) pos with hx | hx
  · left; rw [hx]; rfl
  · right
    rw [← hsplit] at hx
    rw [← hx]
    cases hr : ((readHead (T := T) (V := V) >>= fun r => (readChunk : Rd S) >>= fun s =>
      pure (r.1, r.2, s)) : Rd (Option (Metadata T) × V × S)) d pos with
    | err x => left; rfl
    | panic => left; rfl
    | ok q =>
      simp only [Res.ok_bind]
      rcases readNorms_mono.mono (d.take n) (d.drop n) q.2 with hn | hn
      · right
        rw [hn]
        refine ⟨_, ?_, rfl, ?_⟩
        · rfl
        · cases readNorms d q.2 with
          | ok r => right; exact ⟨some r.1, rfl⟩
          | err x => right; exact ⟨none, rfl⟩
          | panic => left; rfl
      · left
        rw [← hsplit] at hn
        rw [← hn]

/-! ## C18 -/

/-- Specification: a reader that returns this value has found all of it in the data. -/
def EndsInside (s : S) : Prop := ∀ d pos p, readChunk d pos = .ok (s, p) → p ≤ d.length

/-- C18 (part): every truncation of embeddings without norms is an I/O error, provided the storage's last bytes are
data (for storages without data see `c18_empty_false`). Missing: files with norms (`c18_norms_false`); for
those only C17 holds. -/
theorem c18_partial (e : Embeddings T V S F32) (he : Storable e) (hn : e.norms = none)
    (hs : EndsInside e.storage) (pre : Bytes) (n : Nat) (hlt : n < (pre ++ (e.write pre.length).bytes).length) :
    (read ((pre ++ (e.write pre.length).bytes).take n) pre.length : Res (Embeddings T V S F32)) = .err .io := by
  obtain ⟨p, hlen, ⟨pre', hl, hpre⟩, hr⟩ := read_written he pre
  rw [hn] at hpre hlen
  have hr := hr []
  rw [List.append_nil] at hr
  have hpl : p = pre.length + (e.write pre.length).bytes.length := hlen
  generalize hD : pre ++ (e.write pre.length).bytes = D at *
  have hDl : D.length = p := by rw [hpre]; show (pre' ++ []).length = p; rw [List.append_nil, hl]
  have hsplit : D = D.take n ++ D.drop n := (List.take_append_drop n D).symm
  have hhead : Mono (readHead (T := T) (V := V)) := by
    unfold readHead
    refine Mono.bind ?_ fun _ => VocabChunk.mono.bind fun _ => Mono.pure _
    unfold readOptMetadata
    refine Header.read_mono.bind fun h => ?_
    have := readMetadata_mono (T := T)
    mono_tac
  rw [read_eq]
  rcases hhead.mono (D.take n) (D.drop n) pre.length with hx | hx
  · rw [hx]; rfl
  · rw [← hsplit] at hx
    rw [← hx]
    cases hh : readHead (T := T) (V := V) D pre.length with
    | err x => rw [hh] at hr; cases hr
    | panic => rw [hh] at hr; cases hr
    | ok r =>
      rw [hh] at hr
      simp only [Res.ok_bind] at hr ⊢
      rcases (StorageChunk.mono (S := S)).mono (D.take n) (D.drop n) r.2 with hx2 | hx2
      · rw [hx2]; rfl
      · rw [← hsplit] at hx2
        rw [← hx2]
        cases hc : (readChunk : Rd S) D r.2 with
        | err x => rw [hc] at hr; cases hr
        | panic => rw [hc] at hr; cases hr
        | ok q =>
          exfalso
          rw [hc] at hr
          simp only [Res.ok_bind, Res.ok.injEq, Prod.mk.injEq] at hr
          obtain ⟨⟨_, _, hs1⟩, hp1⟩ := hr
          have hq : q = (e.storage, p) := by rw [← hs1, ← hp1]
          rw [hx2, hq] at hc
          have := hs _ _ _ hc
          simp only [List.length_take] at this
          omega

/-! ## C20 -/

/-- C20: reading only the metadata of a written file returns the metadata of the embeddings. -/
theorem c20_read_metadata (e : Embeddings T V S F32) (hm : ∀ m ∈ e.metadata, RoundTrips m)
    (hv : LenCorrect e.vocab) (hs : LenCorrect e.storage) (pre post : Bytes) :
    ∃ p, (readOptMetadata : Rd (Option (Metadata T))) (pre ++ (e.write pre.length).bytes ++ post) pre.length =
      .ok (e.metadata, p) := by
  obtain ⟨hg, o1, o2, o3, o4, h1, h2, h3, h4, hb⟩ :=
    write_bytes e pre.length (fun o => (hv o).1) (fun o => (hs o).1)
  have h := readOptMetadata_readsAt e (StorageChunk.id_ne _) hm pre.length pre
    (((writeChunk e.vocab o2).bytes ++ ((writeChunk e.storage o3).bytes ++ (writeOpt e.norms o4).bytes)) ++ post) rfl
  rw [← h1] at h
  refine ⟨_, Eq.trans ?_ h⟩
  rw [hb]
  simp only [List.append_assoc]

end

/-! ## The wrapper types -/

theorem RoundTrips.wrap {X Y : Type} [WriteChunk X] [ReadChunk X] [WriteChunk Y] [ReadChunk Y] {inj : X → Y}
    {x : X} (hx : RoundTrips x) {code : Nat} (hw : ∀ off, writeChunk (inj x) off = writeChunk x off)
    (ha : AgreesOn (readChunk : Rd Y) code (readChunk : Rd X) inj)
    (hu : ∀ d pos a p, (readChunk : Rd X) d pos = .ok (a, p) → u32At d pos = some code) :
    RoundTrips (inj x) := by
  intro pre post
  rw [hw]
  refine ⟨(hx pre post).1, ?_⟩
  have h := (hx pre post).2
  rw [ha _ _ (hu _ _ _ _ h), h]; rfl

/-- A successful read saw the right chunk identifier. -/
theorem ensure_ok {X : Type} {i : ChunkId} {f : Unit → Rd X} {d : Bytes} {pos p : Nat} {a : X}
    (h : (ensureChunkType i >>= f) d pos = .ok (a, p)) : u32At d pos = some i.code := by
  obtain ⟨u, p1, h1, _⟩ := Rd.bind_ok.mp h
  exact (ensureChunkType_ok h1).1

/-- Words that can be stored: shorter than 4 GiB each, and as many as fit into memory. -/
def WordsFit (ws : List Str) : Prop := (∀ w ∈ ws, strLen w < 2 ^ 32) ∧ 24 * ws.length ≤ isizeMax

/-- Vocabularies that survive a round trip: built by the constructors with the default boundary markers (floret:
any markers but no words), with sizes that fit the 32-bit fields. -/
def StorableVocab : VocabWrap → Prop
  | .simple v => ∃ ws, SimpleVocab.new ws = .ok v ∧ WordsFit ws
  | .bucket v => ∃ e ix ws m M, HashIndexer.new e = .ok ix ∧ SubwordVocab.new ws m M ix = .ok v ∧
      WordsFit ws ∧ m < 2 ^ 32 ∧ M < 2 ^ 32
  | .fastText v => ∃ b ix ws m M, FastTextIndexer.new b = .ok ix ∧ SubwordVocab.new ws m M ix = .ok v ∧
      WordsFit ws ∧ m < 2 ^ 32 ∧ M < 2 ^ 32
  | .explicit v => ∃ ix ws m M, ((∃ ng, ExplicitIndexer.new ng = .ok ix) ∨
        ∃ t o2n, ExplicitIndexer.newWithIndices t = .ok (ix, o2n)) ∧ SubwordVocab.new ws m M ix = .ok v ∧
      WordsFit ws ∧ (∀ g ∈ ix.ngrams, strLen g < 2 ^ 32) ∧ 32 * ix.ngrams.length ≤ isizeMax ∧
      m < 2 ^ 32 ∧ M < 2 ^ 32
  | .floret v => ∃ nb nh seed ix m M bow eow, FloretIndexer.new nb nh seed = .ok ix ∧
      SubwordVocab.newWithBoundaries [] m M ix bow eow = .ok v ∧ strLen bow < 2 ^ 32 ∧
      strLen eow < 2 ^ 32 ∧ m < 2 ^ 32 ∧ M < 2 ^ 32

/-- In-memory storages that survive a round trip. -/
def StorableStorage : StorageWrap → Prop
  | .ndArray a => a.inner.WF ∧ a.inner.cols < 2 ^ 32 ∧ a.inner.nrows < 2 ^ 63 ∧
      4 * (a.inner.nrows * a.inner.cols) ≤ isizeMax
  | .quantized a => a.WF ∧ a.Fits
  | _ => False

theorem StorableVocab.roundTrips {v : VocabWrap} (h : StorableVocab v) : RoundTrips v := by
  cases v with
  | simple v =>
    obtain ⟨ws, h1, h2, h3⟩ := h
    exact (c07_simple ws v h1 h2 h3).wrap (fun _ => rfl) c16_vocab.1 fun d pos a p h =>
      by
      have h : SimpleVocab.read d pos = _ := h
      unfold SimpleVocab.read at h
      exact ensure_ok h
  | bucket v =>
    obtain ⟨e, ix, ws, m, M, h1, h2, h3, h4, h5⟩ := h
    exact (c08_bucket_partial e ix h1 ws m M v h2 h3.1 h3.2 h4 h5).wrap (fun _ => rfl) c16_vocab.2.1
      fun d pos a p h => by
      have h : readBucketed (I := HashIndexer) .bucketSubwordVocab d pos = _ := h
      unfold readBucketed at h
      exact ensure_ok h
  | fastText v =>
    obtain ⟨e, ix, ws, m, M, h1, h2, h3, h4, h5⟩ := h
    exact (c08_fasttext_partial e ix h1 ws m M v h2 h3.1 h3.2 h4 h5).wrap (fun _ => rfl) c16_vocab.2.2.1
      fun d pos a p h => by
      have h : readBucketed (I := FastTextIndexer) .fastTextSubwordVocab d pos = _ := h
      unfold readBucketed at h
      exact ensure_ok h
  | explicit v =>
    obtain ⟨ix, ws, m, M, h1, h2, h3, h4, h5, h6, h7⟩ := h
    exact (c09_explicit_partial ix h1 ws m M v h2 h3.1 h3.2 h4 h5 h6 h7).wrap (fun _ => rfl) c16_vocab.2.2.2.1
      fun d pos a p h => by
      have h : readExplicit d pos = _ := h
      unfold readExplicit at h
      exact ensure_ok h
  | floret v =>
    obtain ⟨nb, nh, seed, ix, m, M, bow, eow, h1, h2, h3, h4, h5, h6⟩ := h
    exact (c10_floret_partial nb nh seed ix h1 m M bow eow v h2 h3 h4 h5 h6).wrap (fun _ => rfl)
      c16_vocab.2.2.2.2.1 fun d pos a p h => by
      have h : readFloret d pos = _ := h
      unfold readFloret at h
      exact ensure_ok h

theorem StorableStorage.roundTrips {s : StorageWrap} (h : StorableStorage s) : RoundTrips s := by
  cases s with
  | ndArray a =>
    obtain ⟨h1, h2, h3, h4⟩ := h
    refine (c11_array a h1 h2 h3 h4).wrap (fun _ => rfl) c16_storage.1 fun d pos a p h => ?_
    obtain ⟨_, _, h1, _⟩ := Rd.bind_ok.mp (show readNdArray d pos = _ from h)
    exact ensure_ok (i := .ndArray) h1
  | quantized a =>
    refine (c12_quantized a h.1 h.2).wrap (fun _ => rfl) c16_storage.2.1 fun d pos a p h => ?_
    obtain ⟨_, _, h1, _⟩ := Rd.bind_ok.mp (show readQuantizedArray d pos = _ from h)
    exact ensure_ok (i := .quantizedArray) h1
  | mmapArray a => exact h.elim
  | mmapQuantized a => exact h.elim

/-- C15 for the wrapper types, with the conditions spelled out. -/
theorem c15_wrap {T : Type} [Toml T] (e : Embeddings T VocabWrap StorageWrap F32)
    (hm : ∀ m ∈ e.metadata, Toml.parse (Toml.print m.inner) = some m.inner ∧
      strLen (Toml.print m.inner) ≤ isizeMax)
    (hv : StorableVocab e.vocab) (hs : StorableStorage e.storage)
    (hn : ∀ n ∈ e.norms, 4 * n.inner.length ≤ isizeMax) : Storable e where
  metadata m h := c14_metadata m (hm m h).1 (hm m h).2
  vocab := hv.roundTrips
  storage := hs.roundTrips
  norms n h := c13_norms n (hn n h)

/-- Embeddings with metadata, two words, a 2×2 matrix and norms, used as example. -/
def exampleEmbeddings : Embeddings Str VocabWrap StorageWrap F32 :=
  ⟨some ⟨['a', '=', '"', 'é', '"']⟩, .ndArray ⟨⟨2, [[1, 2], [3, 0x7fc00001]]⟩⟩,
    .simple ⟨indexMap [['a'], ['語']], [['a'], ['語']]⟩, some ⟨[5, 6]⟩⟩

theorem exampleEmbeddings_storable : @Storable _ _ _ exampleToml _ _ _ _ exampleEmbeddings := by
  refine @c15_wrap _ exampleToml _ ?_ ⟨[['a'], ['語']], rfl, by decide, by decide⟩ ?_ ?_
  · intro m h; cases h; exact ⟨rfl, by decide +kernel⟩
  · exact ⟨by intro r hr; revert r; decide, by decide, by decide, by decide⟩
  · intro n h; cases h; decide

attribute [local instance] exampleToml in
/-- The hypotheses of C06, C15, C17, C19 and C20 are met by the example. -/
example : LenCorrect exampleEmbeddings.vocab ∧ LenCorrect exampleEmbeddings.storage ∧ Storable exampleEmbeddings ∧
    (exampleEmbeddings.norms = none → u32At [] 0 ≠ some 6) :=
  ⟨c04_simple _, c05_array _ (by intro r hr; revert r; decide), exampleEmbeddings_storable, by simp [exampleEmbeddings]⟩

/-- `c06_write_len`, `c19_failing_writer` (a device for 50 bytes), `c15_round_trip` (between other bytes),
`c17_truncated` (a file of 60 bytes) and `c20_read_metadata` applied to the example. -/
example := @c06_write_len _ _ _ exampleToml _ _ exampleEmbeddings (c04_simple _)
  (c05_array _ (by intro r hr; revert r; decide)) 3
example := @c19_failing_writer _ _ _ exampleToml _ _ exampleEmbeddings (c04_simple _)
  (c05_array _ (by intro r hr; revert r; decide)) 3 50
example := @c15_round_trip _ _ _ exampleToml _ _ _ _ _ _ exampleEmbeddings exampleEmbeddings_storable [1, 2, 3] [4, 5]
  (by simp [exampleEmbeddings])
example := @c17_truncated _ _ _ exampleToml _ _ _ _ _ _ exampleEmbeddings exampleEmbeddings_storable [1, 2, 3] 60
attribute [local instance] exampleToml in
example := c20_read_metadata exampleEmbeddings exampleEmbeddings_storable.metadata
  (c04_simple _) (c05_array _ (by intro r hr; revert r; decide)) [1, 2, 3] [4, 5]

/-- C06 for the wrapper types, with the conditions spelled out: explicit indexers come from a constructor and
matrices are rectangular. For mapped storages see `c21_embeddings`. -/
theorem c06_wrap {T : Type} [Toml T] (e : Embeddings T VocabWrap StorageWrap F32)
    (hv : ∀ v, e.vocab = .explicit v → (∃ ng, ExplicitIndexer.new ng = .ok v.indexer) ∨
      ∃ t o2n, ExplicitIndexer.newWithIndices t = .ok (v.indexer, o2n))
    (hs : (∃ a, e.storage = .ndArray a ∧ a.inner.WF) ∨ ∃ a, e.storage = .quantized a ∧ a.WF) (off : Nat) :
    (e.write off).status = .ok () ∧ (e.write off).bytes.length = e.writeLen off := by
  apply c06_write_len
  · cases hev : e.vocab with
    | simple v => exact c04_simple v
    | bucket v => exact c04_bucket v
    | fastText v => exact c04_fasttext v
    | floret v => exact c04_floret v
    | explicit v => exact c04_explicit v (hv v hev)
  · rcases hs with ⟨a, ha, hw⟩ | ⟨a, ha, hw⟩
    · rw [ha]; exact c05_array a hw
    · rw [ha]; exact c05_quantized a hw

example : (∃ a, exampleEmbeddings.storage = .ndArray a ∧ a.inner.WF) ∧
    (∀ v, exampleEmbeddings.vocab ≠ .explicit v) :=
  ⟨⟨_, rfl, by intro r hr; revert r; decide⟩, by simp [exampleEmbeddings]⟩

/-- `c06_wrap` applied to the example. -/
example := @c06_wrap _ exampleToml exampleEmbeddings (by simp [exampleEmbeddings])
  (.inl ⟨_, rfl, by intro r hr; revert r; decide⟩) 3

/-! ### C06 for mapped storages -/

/-- C05 for memory-mapped arrays: if the chunk was readable, writing the mapped storage produces what
`chunk_len` says. -/
theorem c05_mmap_array (d : Bytes) (pos p : Nat) (a : NdArray F32) (m : MmapArray)
    (h : (readChunk : Rd (NdArray F32)) d pos = .ok (a, p)) (hw : a.inner.WF)
    (hm : mmapNdArray d pos = .ok (m, p)) : LenCorrect m := by
  obtain ⟨m', hm', _, _, _, hw'⟩ := c21_array d pos p a h
  rw [hm] at hm'; cases hm'
  intro off
  rw [(hw' off).1, (hw' off).2]
  exact c05_array a hw off

/-- `c05_mmap_array` applied to an array of two rows. -/
example := c05_mmap_array (writeChunk (NdArray.mk (⟨2, [[1, 2], [3, 4]]⟩ : Mat F32)) 0).bytes 0 48 ⟨⟨2, [[1, 2], [3, 4]]⟩⟩
  ⟨⟨(writeChunk (NdArray.mk (⟨2, [[1, 2], [3, 4]]⟩ : Mat F32)) 0).bytes, 32, 16⟩, 2, 2⟩ (by decide +kernel)
  (by intro r hr; revert r; decide) (by decide +kernel)

example : ∃ m p, (readChunk : Rd (NdArray F32)) (writeChunk (NdArray.mk (⟨2, [[1, 2], [3, 4]]⟩ : Mat F32)) 0).bytes 0 =
      .ok (⟨⟨2, [[1, 2], [3, 4]]⟩⟩, p) ∧
    mmapNdArray (writeChunk (NdArray.mk (⟨2, [[1, 2], [3, 4]]⟩ : Mat F32)) 0).bytes 0 = .ok (m, p) :=
  ⟨⟨⟨(writeChunk (NdArray.mk (⟨2, [[1, 2], [3, 4]]⟩ : Mat F32)) 0).bytes, 32, 16⟩, 2, 2⟩, 48,
    by decide +kernel, by decide +kernel⟩

/-! ### C18 -/

theorem NdArray.endsInside {a : NdArray F32} (h : a.inner.nrows * a.inner.cols ≠ 0) : EndsInside a := by
  intro d pos p hr
  have hr : readNdArray d pos = .ok (a, p) := hr
  unfold readNdArray at hr
  obtain ⟨⟨rows, cols⟩, p1, hh, h1⟩ := Rd.bind_ok.mp hr
  dsimp only at h1
  obtain ⟨_, p2, ha, h2⟩ := Rd.bind_ok.mp h1
  obtain ⟨data, p3, hd, h3⟩ := Rd.bind_ok.mp h2
  cases h3
  unfold readF32s at hd
  obtain ⟨bs, p4, hb, hd⟩ := Rd.bind_ok.mp hd
  cases hd
  obtain ⟨rfl, rfl, hlen⟩ := readExact_ok hb
  simp only [Mat.ofFlat_nrows, Mat.ofFlat_cols] at h
  exact hlen (by omega)

theorem QuantizedArray.endsInside {a : QuantizedArray F32} (h : a.codes.nrows * a.codes.cols ≠ 0) :
    EndsInside a := by
  intro d pos p hr
  have hr : readQuantizedArray d pos = .ok (a, p) := hr
  unfold readQuantizedArray at hr
  obtain ⟨⟨r, n⟩, p1, hh, h1⟩ := Rd.bind_ok.mp hr
  dsimp only at h1
  obtain ⟨_, p2, ha, h2⟩ := Rd.bind_ok.mp h1
  obtain ⟨cs, p3, hd, h3⟩ := Rd.bind_ok.mp h2
  cases h3
  obtain ⟨rfl, rfl, hlen⟩ := readExact_ok hd
  simp only [Mat.ofFlat_nrows, Mat.ofFlat_cols] at h
  exact hlen h

/-- C18 is false: the norms at the end are cut off in the middle, reading succeeds without norms. -/
theorem c18_norms_false : ∃ (e : Embeddings Str VocabWrap StorageWrap F32),
    @Storable _ _ _ exampleToml _ _ _ _ e ∧
    ∃ n, n < (@Embeddings.write _ _ _ exampleToml _ _ e 0).bytes.length ∧
      @Embeddings.read _ _ _ exampleToml _ _ ((@Embeddings.write _ _ _ exampleToml _ _ e 0).bytes.take n) 0 =
        .ok { e with norms := none } := by
  refine ⟨exampleEmbeddings, exampleEmbeddings_storable, 140, by decide +kernel, by decide +kernel⟩

/-- C18 is also false without norms if the storage has no data: the padding at the end of the chunk need not be
there. -/
theorem c18_empty_false : ∃ (e : Embeddings Str VocabWrap StorageWrap F32),
    @Storable _ _ _ exampleToml _ _ _ _ e ∧ e.norms = none ∧
    ∃ n, n < (@Embeddings.write _ _ _ exampleToml _ _ e 0).bytes.length ∧
      @Embeddings.read _ _ _ exampleToml _ _ ((@Embeddings.write _ _ _ exampleToml _ _ e 0).bytes.take n) 0 =
        .ok e := by
  refine ⟨⟨none, .ndArray ⟨⟨2, []⟩⟩, .simple ⟨indexMap [], []⟩, none⟩, ?_, rfl, 68, by decide +kernel,
    by decide +kernel⟩
  refine @c15_wrap _ exampleToml _ ?_ ⟨[], rfl, by decide, by decide⟩ ?_ ?_
  · intro m h; cases h
  · refine ⟨?_, by decide, by decide, by decide⟩
    intro r hr; simp at hr
  · intro n h; cases h

attribute [local instance] exampleToml in
/-- The hypotheses of C18 (part) are met by a storage with data. -/
example : @Storable _ _ _ exampleToml _ _ _ _ { exampleEmbeddings with norms := none } ∧
    EndsInside (NdArray.mk (⟨2, [[1, 2], [3, 0x7fc00001]]⟩ : Mat F32)) :=
  ⟨@Storable.mk _ _ _ exampleToml _ _ _ _ _ exampleEmbeddings_storable.metadata
    exampleEmbeddings_storable.vocab exampleEmbeddings_storable.storage (by intro n h; cases h), NdArray.endsInside (by decide)⟩

attribute [local instance] exampleToml in
/-- `c18_partial` applied to a file cut to 20 bytes. -/
example := @c18_partial Str VocabWrap (NdArray F32) exampleToml _ _ _ _ _ _
  ⟨none, ⟨⟨2, [[1, 2], [3, 0x7fc00001]]⟩⟩, exampleEmbeddings.vocab, none⟩
  (@Storable.mk _ _ _ exampleToml _ _ _ _ _ (by intro m h; cases h) exampleEmbeddings_storable.vocab
    (c11_array _ (by intro r hr; revert r; decide) (by decide) (by decide) (by decide)) (by intro n h; cases h))
  rfl (NdArray.endsInside (by decide)) [1, 2, 3] 20 (by decide +kernel)

/-! ## C21 for whole files -/

/-- C21 for whole files: if a file can be read, it can also be opened with the storage memory mapped, and the
result has the same metadata, vocabulary, norms and vectors, and is written back as the same bytes. -/
theorem c21_embeddings {T V : Type} [Toml T] [WriteChunk V] [ReadChunk V] [Scalar F32] (d : Bytes) (pos : Nat)
    (e : Embeddings T V StorageWrap F32) (h : read d pos = .ok e) :
    ∃ e' : Embeddings T V StorageWrap F32, mmap mmapStorageWrap d pos = .ok e' ∧ e'.metadata = e.metadata ∧
      e'.vocab = e.vocab ∧ e'.norms = e.norms ∧ SameRows e'.storage e.storage ∧
      ∀ off, e'.write off = e.write off ∧ e'.writeLen off = e.writeLen off := by
  unfold Embeddings.read Embeddings.readWith at h
  obtain ⟨⟨⟨m, v⟩, p⟩, hh, h1⟩ := Res.bind_eq_ok.mp h
  dsimp only at h1
  obtain ⟨⟨s, p2⟩, hs, h2⟩ := Res.bind_eq_ok.mp h1
  dsimp only at h2
  obtain ⟨n, hn, h3⟩ := Res.bind_eq_ok.mp h2
  cases h3
  obtain ⟨s', hs', hsame, hw⟩ := c21_wrap d p p2 s hs
  refine ⟨⟨m, s', v, n.map (·.1)⟩, ?_, rfl, rfl, rfl, hsame, ?_⟩
  · unfold Embeddings.mmap Embeddings.readWith
    rw [hh]; simp only [Res.ok_bind]
    rw [hs']; simp only [Res.ok_bind]
    rw [hn]; rfl
  · have hid : chunkId s' = chunkId s := by
      have hs : readStorageWrap d p = .ok (s, p2) := hs
      cases hu : u32At d p with
      | none => rw [(c16_storage.2.2.1 d p).1 hu] at hs; cases hs
      | some c =>
        by_cases h2 : c = 2
        · subst h2
          rw [c16_storage.1 d p hu] at hs
          rw [c16_storage.2.2.2.1 d p hu] at hs'
          obtain ⟨_, _, e1⟩ := map_eq_ok.mp hs
          obtain ⟨_, _, e2⟩ := map_eq_ok.mp hs'
          rw [← (Prod.mk.inj e1).1, ← (Prod.mk.inj e2).1]; rfl
        · by_cases h4 : c = 4
          · subst h4
            rw [c16_storage.2.1 d p hu] at hs
            rw [c16_storage.2.2.2.2.1 d p hu] at hs'
            obtain ⟨_, _, e1⟩ := map_eq_ok.mp hs
            obtain ⟨_, _, e2⟩ := map_eq_ok.mp hs'
            rw [← (Prod.mk.inj e1).1, ← (Prod.mk.inj e2).1]; rfl
          · rw [(c16_storage.2.2.1 d p).2 c hu (by simp [h2, h4])] at hs; cases hs
    have hids : (Embeddings.mk m s' v (n.map (·.1)) : Embeddings T V StorageWrap F32).chunkIds =
        (Embeddings.mk m s v (n.map (·.1)) : Embeddings T V StorageWrap F32).chunkIds := by
      unfold Embeddings.chunkIds
      simp only [hid]
    have hwf : (writeChunk s' : Nat → W) = writeChunk s := funext fun o => (hw o).1
    have hlf : (chunkLen s' : Nat → Nat) = chunkLen s := funext fun o => (hw o).2
    intro off
    unfold Embeddings.write Embeddings.writeLen
    rw [hids]
    simp only [hwf, hlf]
    exact ⟨trivial, trivial⟩

attribute [local instance] exampleToml in
example : (read (exampleEmbeddings.write 0).bytes 0 : Res (Embeddings Str VocabWrap StorageWrap F32)) =
    .ok exampleEmbeddings := by decide +kernel

attribute [local instance] exampleToml in
/-- `c21_embeddings` applied to the example. -/
example [Scalar F32] := c21_embeddings (exampleEmbeddings.write 0).bytes 0 exampleEmbeddings (by decide +kernel)

/-! ## C37 -/

/-- Specification: sizes of vocabulary, storage and norms agree. -/
def Consistent {T V S F : Type} [Vocab V] [Storage S F] (e : Embeddings T V S F) : Prop :=
  Vocab.vocabLen e.vocab = .ok (shape e.storage).1 ∧
    ∀ n ∈ e.norms, n.inner.length = Vocab.wordsLen e.vocab

/-- C37 is false: this file parses, but it has two words, one row and three norms; looking up the second word
panics. -/
theorem c37_false [Scalar F32] : ∃ (d : Bytes) (e : Embeddings Str VocabWrap StorageWrap F32),
    @Embeddings.read _ _ _ exampleToml _ _ d 0 = .ok e ∧ Vocab.vocabLen e.vocab = .ok 2 ∧
    shape e.storage = (1, 2) ∧ (e.norms.map fun n => n.inner.length) = some 3 ∧
    e.embedding ['語'] = .panic := by
  let e : Embeddings Str VocabWrap StorageWrap F32 :=
    ⟨none, .ndArray ⟨⟨2, [[1, 2]]⟩⟩, .simple ⟨indexMap [['a'], ['語']], [['a'], ['語']]⟩, some ⟨[5, 6, 7]⟩⟩
  refine ⟨(@Embeddings.write _ _ _ exampleToml _ _ e 0).bytes, e, ?_, rfl, rfl, rfl, rfl⟩
  decide +kernel

/-- C37, what holds: whatever is read from a written file of consistent embeddings, also if it is truncated, is
consistent. Missing: files that were not written from consistent embeddings. -/
theorem c37_partial {T V S : Type} [Toml T] [WriteChunk V] [ReadChunk V] [VocabChunk V] [WriteChunk S]
    [ReadChunk S] [StorageChunk S] [Vocab V] [Storage S F32] (e e' : Embeddings T V S F32) (he : Storable e)
    (hc : Consistent e) (pre : Bytes) (n : Nat)
    (h : read ((pre ++ (e.write pre.length).bytes).take n) pre.length = .ok e') : Consistent e' := by
  rcases c17_truncated e he pre n with hx | hx | hx
  · rw [hx] at h; cases h
  · rw [hx] at h; cases h; exact hc
  · rw [hx] at h; cases h
    exact ⟨hc.1, by intro n hn; cases hn⟩

example [Scalar F32] : Consistent exampleEmbeddings := ⟨rfl, by intro n h; cases h; rfl⟩

attribute [local instance] exampleToml in
/-- `c37_partial` applied to the whole file of the example. -/
example [Scalar F32] := c37_partial exampleEmbeddings exampleEmbeddings exampleEmbeddings_storable
  ⟨rfl, by intro n h; cases h; rfl⟩ [] 1000 (by decide +kernel)

end FF
