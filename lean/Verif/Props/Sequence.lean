import Verif.Model.Resume
import Verif.Props.EmbeddingsIO
import Verif.Props.Word2vec
import Verif.Props.StorageIO

/-!
# C90: several embeddings in one stream
-/

namespace FF

open Rd Embeddings Res

/-- Reading embeddings one after the other, each from where the stream is left, gives `es`. -/
inductive ReadsMany {T V S : Type} [Toml T] [ReadChunk V] [ReadChunk S] (d : Bytes) :
    Nat → List (Embeddings T V S F32) → Prop where
  | nil (pos : Nat) : ReadsMany d pos []
  | last {pos : Nat} {e : Embeddings T V S F32} (h : Embeddings.read d pos = .ok e) : ReadsMany d pos [e]
  | cons {pos q : Nat} {e : Embeddings T V S F32} {es} (h : readOn d pos = .ok (e, some q)) (hs : ReadsMany d q es) :
      ReadsMany d pos (e :: es)

theorem normsStop_ok {d : Bytes} {p q : Nat} {n : NdNorms F32} (h : readNorms d p = .ok (n, q)) :
    normsStop d p = some q := by
  unfold readNorms at h
  obtain ⟨_, p1, h1, h⟩ := Rd.bind_ok.mp h
  obtain ⟨l, p2, h2, h⟩ := Rd.bind_ok.mp h
  obtain ⟨len, p3, h3, h⟩ := Rd.bind_ok.mp h
  obtain ⟨_, p4, h4, h⟩ := Rd.bind_ok.mp h
  obtain ⟨p', p5, h5, h⟩ := Rd.bind_ok.mp h
  obtain ⟨_, p6, h6, h⟩ := Rd.bind_ok.mp h
  obtain ⟨_, p7, h7, h⟩ := Rd.bind_ok.mp h
  obtain ⟨xs, p8, h8, hf⟩ := Rd.bind_ok.mp h
  cases h5; cases h6; cases hf
  obtain ⟨_, _, h7⟩ := Res.map_eq_ok.mp h7
  cases h7
  obtain ⟨u1, rfl⟩ := ensureChunkType_ok h1
  obtain ⟨u4, rfl⟩ := ensureDataType_ok h4
  simp only [normsStop, readU32_some u1, h2, h3, readU32_some u4, h8, ne_eq, not_true_eq_false, if_false]

theorem normsStop_other {d : Bytes} {p c : Nat} (h : u32At d p = some c) (hc : c ≠ 6) : normsStop d p = some (p + 4) := by
  simp only [normsStop, readU32_some h]
  rw [if_pos (by simpa [ChunkId.code] using hc)]

/-- **C90**, where the stream is left after the attempt to read norms, for all data: behind the identifier of a chunk that is
not one of norms, behind the type of the components if it is not that of single precision, and behind norms that are there. -/
theorem c90_stop (d : Bytes) (p q : Nat) : normsStop d p = some q ↔
    (∃ c, u32At d p = some c ∧ c ≠ 6 ∧ q = p + 4) ∨
    (u32At d p = some 6 ∧ ∃ l n t, u64At d (p + 4) = some l ∧ u64At d (p + 12) = some n ∧ u32At d (p + 20) = some t ∧
      ((t ≠ 10 ∧ q = p + 24) ∨
        (t = 10 ∧ q = p + 24 + padding 4 (p + 24) + 4 * n ∧ (n = 0 ∨ q ≤ d.length)))) := by
  unfold normsStop
  cases h1 : u32At d p with
  | none => simp [readU32_none h1]
  | some c =>
    simp only [readU32_some h1]
    by_cases hc : c = 6
    · subst hc
      rw [if_neg (by decide)]
      cases h2 : u64At d (p + 4) with
      | none => simp [readU64_none h2]
      | some l =>
        simp only [readU64_some h2]
        cases h3 : u64At d (p + 12) with
        | none => simp [readU64_none h3]
        | some n =>
          simp only [readU64_some h3]
          cases h4 : u32At d (p + 20) with
          | none => simp [readU32_none h4]
          | some t =>
            simp only [readU32_some h4]
            by_cases ht : t = 10
            · subst ht
              rw [if_neg (by decide)]
              have hr : ∀ x, (readF32s n d x = .err .io ∧ n ≠ 0 ∧ d.length < x + 4 * n) ∨
                  ((∃ xs, readF32s n d x = .ok (xs, x + 4 * n)) ∧ (n = 0 ∨ x + 4 * n ≤ d.length)) := by
                intro x
                unfold readF32s
                rw [bind_apply]
                unfold readExact
                by_cases h0 : n = 0
                · subst h0
                  exact .inr ⟨⟨_, rfl⟩, .inl rfl⟩
                · rw [if_neg (by omega)]
                  split
                  · exact .inr ⟨⟨_, rfl⟩, .inr (by assumption)⟩
                  · exact .inl ⟨rfl, h0, by omega⟩
              have e : p + 4 + 8 + 8 + 4 = p + 24 := by omega
              rw [e]
              rcases hr (p + 24 + padding 4 (p + 24)) with ⟨h5, h6, h7⟩ | ⟨⟨xs, h5⟩, h6⟩
              · rw [h5]
                simp
                omega
              · rw [h5]
                simp
                omega
            · rw [if_pos (by simpa [f32TypeId] using ht)]
              simp [ht]
              omega
    · rw [if_pos (by simpa [ChunkId.code] using hc)]
      simp [hc]
      omega

/-- After other data, norms of another type, and two norms at an aligned position (`c90_stop`). -/
example : normsStop [7, 0, 0, 0, 1] 0 = some 4 ∧
    normsStop (leBytes 4 6 ++ leBytes 8 20 ++ leBytes 8 2 ++ leBytes 4 1 ++ [1, 2]) 0 = some 24 ∧
    normsStop (leBytes 4 6 ++ leBytes 8 24 ++ leBytes 8 2 ++ leBytes 4 10 ++ List.replicate 12 0) 0 = some 36 ∧
    normsStop (leBytes 4 6 ++ leBytes 8 24 ++ leBytes 8 2 ++ leBytes 4 10 ++ List.replicate 11 0) 0 = none ∧
    normsStop [1, 2, 3] 0 = none := by
  refine ⟨?_, ?_, ?_, ?_, ?_⟩ <;> decide +kernel

section
variable {T V S : Type} [Toml T] [ReadChunk V] [ReadChunk S]

theorem readOn_eq (d : Bytes) (pos : Nat) : (readOn d pos : Res (Embeddings T V S F32 × Option Nat)) =
    ((readHead (T := T) (V := V) d pos >>= fun r => (readChunk : Rd S) d r.2 >>= fun s =>
      .ok ((r.1.1, r.1.2, s.1), s.2)) >>= fun r => orNone (readNorms d r.2) >>= fun n =>
        .ok (⟨r.1.1, r.1.2.2, r.1.2.1, n.map (·.1)⟩, normsStop d r.2)) := by
  unfold readOn
  cases readHead (T := T) (V := V) d pos with
  | ok r =>
    obtain ⟨⟨m, v⟩, p⟩ := r
    simp only [Res.ok_bind]
    cases (readChunk : Rd S) d p with
    | ok r => rfl
    | err => rfl
    | panic => rfl
  | err => rfl
  | panic => rfl

theorem readOn_read (d : Bytes) (pos : Nat) :
    (readOn d pos : Res (Embeddings T V S F32 × Option Nat)).map (·.1) = Embeddings.read d pos := by
  rw [readOn_eq, read_eq]
  generalize (readHead (T := T) (V := V) d pos >>= fun r => (readChunk : Rd S) d r.2 >>= fun s =>
      Res.ok ((r.1.1, r.1.2, s.1), s.2)) = x
  cases x with
  | ok r =>
    simp only [Res.ok_bind]
    cases orNone (readNorms d r.2) <;> rfl
  | err => rfl
  | panic => rfl

end

section
variable {T V S : Type} [Toml T] [WriteChunk V] [ReadChunk V] [VocabChunk V] [WriteChunk S] [ReadChunk S] [StorageChunk S]

theorem readOn_norms {e : Embeddings T V S F32} (he : Storable e) (hn : e.norms ≠ none) (pre post : Bytes) :
    (readOn (pre ++ (e.write pre.length).bytes ++ post) pre.length : Res (Embeddings T V S F32 × Option Nat)) =
      .ok (e, some (pre.length + (e.write pre.length).bytes.length)) := by
  obtain ⟨p, hlen, ⟨pre', hl, hpre⟩, hr⟩ := read_written he pre
  rw [readOn_eq, hr]
  simp only [Res.ok_bind]
  cases hne : e.norms with
  | none => exact absurd hne hn
  | some n =>
    have := (he.norms n hne).readsAt p pre' post hl
    rw [hne] at hpre hlen
    rw [hpre, List.append_assoc]
    have e1 : readNorms (pre' ++ ((writeOpt (some n) p).bytes ++ post)) p = _ := this
    have e2 : p + (writeChunk n p).bytes.length = pre.length + (e.write pre.length).bytes.length := hlen
    rw [e1, normsStop_ok e1, e2]
    show Res.ok (Embeddings.mk _ _ _ (some n), _) = _
    rw [← hne]

theorem readOn_none {e : Embeddings T V S F32} (he : Storable e) (hn : e.norms = none) (pre post : Bytes) (c : Nat)
    (hc : u32At post 0 = some c) (hc6 : c ≠ 6) :
    (readOn (pre ++ (e.write pre.length).bytes ++ post) pre.length : Res (Embeddings T V S F32 × Option Nat)) =
      .ok (e, some (pre.length + (e.write pre.length).bytes.length + 4)) := by
  obtain ⟨p, hlen, ⟨pre', hl, hpre⟩, hr⟩ := read_written he pre
  rw [readOn_eq, hr]
  simp only [Res.ok_bind]
  rw [hn] at hpre hlen
  have hpre : pre ++ (e.write pre.length).bytes = pre' ++ [] := hpre
  have hlen : p = pre.length + (e.write pre.length).bytes.length := hlen
  have hu : u32At (pre ++ (e.write pre.length).bytes ++ post) p = some c := by
    rw [hpre, ← hl, List.append_nil, ← hc]
    unfold u32At sliceAt
    simp
  obtain ⟨x, hx⟩ := readNorms_none (d := pre ++ (e.write pre.length).bytes ++ post) (p := p) (by rw [hu]; simpa using hc6)
  rw [hx, normsStop_other hu hc6, ← hlen]
  show Res.ok (Embeddings.mk _ _ _ none, _) = _
  rw [← hn]

omit [ReadChunk V] [VocabChunk V] [ReadChunk S] [StorageChunk S] in
/-- What is written first is the file identification, hence not the start of a norms chunk. -/
theorem write_start (e : Embeddings T V S F32) (off : Nat) (hv : ∀ off, (writeChunk e.vocab off).Good)
    (hs : ∀ off, (writeChunk e.storage off).Good) :
    ∃ rest, (e.write off).bytes = [70, 105, 70, 117, 0, 0, 0, 0] ++ rest := by
  obtain ⟨-, o1, o2, o3, o4, -, -, -, -, hb⟩ := write_bytes e off hv hs
  rw [hb, Header.write_bytes]
  exact ⟨_, by simp [magic, List.append_assoc]; rfl⟩

omit [VocabChunk V] [StorageChunk S] in
theorem writeMany_good {es : List (Embeddings T V S F32)} (he : ∀ e ∈ es, Storable e) (off : Nat) : (writeMany es off).Good := by
  induction es generalizing off with
  | nil => exact W.good_nil
  | cons e es ih =>
    exact andThen_good (write_bytes e off (he e (by simp)).vocab.good (he e (by simp)).storage.good).1
      (ih (fun x hx => he x (by simp [hx])) _)

omit [VocabChunk V] [StorageChunk S] in
theorem writeMany_cons {e : Embeddings T V S F32} (es : List (Embeddings T V S F32)) (he : Storable e) (off : Nat) :
    (writeMany (e :: es) off).bytes = (e.write off).bytes ++ (writeMany es (off + (e.write off).bytes.length)).bytes :=
  andThen_bytes (write_bytes e off he.vocab.good he.storage.good).1

omit [VocabChunk V] [StorageChunk S] in
/-- What follows in the stream is not the start of a norms chunk. -/
theorem writeMany_start {es : List (Embeddings T V S F32)} (he : ∀ e ∈ es, Storable e) (off : Nat) (post : Bytes)
    (hp : u32At post 0 ≠ some 6) : u32At ((writeMany es off).bytes ++ post) 0 ≠ some 6 := by
  cases es with
  | nil => exact hp
  | cons e es =>
    rw [writeMany_cons es (he e (by simp))]
    obtain ⟨rest, hr⟩ := write_start e off (he e (by simp)).vocab.good (he e (by simp)).storage.good
    rw [hr]
    have : u32At ([70, 105, 70, 117, 0, 0, 0, 0] ++ rest ++ (writeMany es (off + ([70, 105, 70, 117, 0, 0, 0, 0] ++ rest).length)).bytes ++ post) 0 =
        some (leVal [70, 105, 70, 117]) := by
      simp [u32At, sliceAt]
    rw [this]
    decide

/-- **C90**, what holds: embeddings written one after the other to one stream are read back one after the other, if all of
them, except perhaps the last, have norms. Whatever precedes (`pre`) or follows (`post`) does not matter, as long as embeddings
without norms are not followed by the start of a norms chunk. -/
theorem c90_partial (es : List (Embeddings T V S F32)) (he : ∀ e ∈ es, Storable e) (hn : ∀ e ∈ es.dropLast, e.norms ≠ none)
    (pre post : Bytes) (hp : u32At post 0 ≠ some 6) :
    (writeMany es pre.length).status = .ok () ∧
    ReadsMany (pre ++ (writeMany es pre.length).bytes ++ post) pre.length es := by
  refine ⟨writeMany_good he _, ?_⟩
  induction es generalizing pre with
  | nil => exact .nil _
  | cons e es ih =>
    have h1 := he e (by simp)
    rw [writeMany_cons es h1]
    cases es with
    | nil =>
      refine .last ?_
      have := (c15_round_trip e h1 pre post fun _ => hp).2
      simpa [writeMany, W.bytes, W.nil] using this
    | cons e' es =>
      have h2 := readOn_norms h1 (hn e (by simp)) pre
        ((writeMany (e' :: es) (pre.length + (e.write pre.length).bytes.length)).bytes ++ post)
      rw [List.append_assoc pre, ← List.append_assoc (e.write pre.length).bytes] at h2
      refine .cons (q := pre.length + (e.write pre.length).bytes.length) (by simpa [List.append_assoc] using h2) ?_
      have h3 := ih (fun x hx => he x (by simp [hx])) (fun x hx => hn x (by simp [hx]))
        (pre ++ (e.write pre.length).bytes)
      simpa [List.append_assoc] using h3

/-- **C90**, whoever moves the stream to where each of the embeddings starts, which `write_embeddings_len` tells, gets them back in any
order, with or without norms. -/
theorem c90_seek_partial (es : List (Embeddings T V S F32)) (he : ∀ e ∈ es, Storable e)
    (hl : ∀ e ∈ es, LenCorrect e.vocab ∧ LenCorrect e.storage) (pre post : Bytes) (hp : u32At post 0 ≠ some 6) (i : Nat)
    (hi : i < es.length) :
    Embeddings.read (pre ++ (writeMany es pre.length).bytes ++ post)
      ((es.take i).foldl (fun off e => off + e.writeLen off) pre.length) = .ok es[i] := by
  induction es generalizing pre i with
  | nil => exact absurd hi (by simp)
  | cons e es ih =>
    have h1 := he e (by simp)
    rw [writeMany_cons es h1]
    cases i with
    | zero =>
      have := (c15_round_trip e h1 pre ((writeMany es (pre.length + (e.write pre.length).bytes.length)).bytes ++ post)
        fun _ => writeMany_start (fun x hx => he x (by simp [hx])) _ post hp).2
      simpa [List.append_assoc] using this
    | succ i =>
      have h2 := c06_write_len e (hl e (by simp)).1 (hl e (by simp)).2 pre.length
      have h3 := ih (fun x hx => he x (by simp [hx])) (fun x hx => hl x (by simp [hx])) (pre ++ (e.write pre.length).bytes) i
        (by simpa using hi)
      simp only [List.take_succ_cons, List.foldl_cons, ← h2.2, List.getElem_cons_succ]
      simpa [List.append_assoc] using h3

/-- **C90** is false without norms, whatever the embeddings: after embeddings without norms the stream is left four bytes
behind the start of what follows, and the next attempt to read is refused with a format error. -/
theorem c90_false (e e' : Embeddings T V S F32) (he : Storable e) (he' : Storable e') (hn : e.norms = none) (pre post : Bytes) :
    ∃ q, (readOn (pre ++ (writeMany [e, e'] pre.length).bytes ++ post) pre.length : Res (Embeddings T V S F32 × Option Nat)) =
        .ok (e, some q) ∧
      (Embeddings.read (pre ++ (writeMany [e, e'] pre.length).bytes ++ post) q : Res (Embeddings T V S F32)) = .err .format := by
  obtain ⟨rest, hr⟩ := write_start e' (pre.length + (e.write pre.length).bytes.length) he'.vocab.good he'.storage.good
  have hb : (writeMany [e, e'] pre.length).bytes = (e.write pre.length).bytes ++ ([70, 105, 70, 117, 0, 0, 0, 0] ++ rest) := by
    rw [writeMany_cons _ he, writeMany_cons _ he', hr]
    simp [writeMany, W.bytes, W.nil]
  refine ⟨pre.length + (e.write pre.length).bytes.length + 4, ?_, ?_⟩
  · rw [hb]
    have := readOn_none he hn pre ([70, 105, 70, 117, 0, 0, 0, 0] ++ rest ++ post) (leVal [70, 105, 70, 117])
      (by simp [u32At, sliceAt]) (by decide)
    simpa [List.append_assoc] using this
  · have hs : sliceAt (pre ++ (writeMany [e, e'] pre.length).bytes ++ post) (pre.length + (e.write pre.length).bytes.length + 4) 4 =
        some [0, 0, 0, 0] := by
      rw [hb]
      have : pre ++ ((e.write pre.length).bytes ++ ([70, 105, 70, 117, 0, 0, 0, 0] ++ rest)) ++ post =
          (pre ++ (e.write pre.length).bytes ++ [70, 105, 70, 117]) ++ ([0, 0, 0, 0] ++ (rest ++ post)) := by simp
      rw [this]
      have hl : (pre ++ (e.write pre.length).bytes ++ [70, 105, 70, 117]).length = pre.length + (e.write pre.length).bytes.length + 4 := by
        simp; omega
      rw [← hl]
      unfold sliceAt
      rw [if_pos (by simp; omega), List.drop_left]
      simp
    unfold Embeddings.read Embeddings.readWith readHead readOptMetadata
    simp only [Rd.bind_apply]
    rw [c02_magic _ _ _ hs (by decide)]
    rfl

end

/-! ## Examples -/

section Examples
attribute [local instance] exampleToml

/-- The example without its norms. -/
def withoutNorms : Embeddings Str VocabWrap StorageWrap F32 := { exampleEmbeddings with norms := none }

theorem withoutNorms_storable : Storable withoutNorms :=
  ⟨exampleEmbeddings_storable.metadata, exampleEmbeddings_storable.vocab, exampleEmbeddings_storable.storage, by simp [withoutNorms]⟩

/-- The hypotheses of `c90_partial` are met: twice embeddings with norms, then embeddings without norms. -/
example : (∀ e ∈ [exampleEmbeddings, exampleEmbeddings, withoutNorms], Storable e) ∧
    (∀ e ∈ [exampleEmbeddings, exampleEmbeddings, withoutNorms].dropLast, e.norms ≠ none) ∧ u32At [1, 2, 3] 0 ≠ some 6 := by
  refine ⟨?_, ?_, by decide⟩
  · intro e he
    simp only [List.mem_cons, List.not_mem_nil, or_false] at he
    rcases he with rfl | rfl | rfl
    · exact exampleEmbeddings_storable
    · exact exampleEmbeddings_storable
    · exact withoutNorms_storable
  · intro e he
    simp only [List.dropLast_cons_cons, List.dropLast_singleton, List.mem_cons, List.not_mem_nil, or_false, or_self] at he
    subst he
    simp [exampleEmbeddings]

/-- The hypotheses of `c90_seek_partial` are met with embeddings without norms in front. -/
example : (∀ e ∈ [withoutNorms, exampleEmbeddings], Storable e ∧ LenCorrect e.vocab ∧ LenCorrect e.storage) := by
  intro e he
  simp only [List.mem_cons, List.not_mem_nil, or_false] at he
  rcases he with rfl | rfl
  · exact ⟨withoutNorms_storable, c04_simple _, c05_array _ (by intro r hr; revert r; decide)⟩
  · exact ⟨exampleEmbeddings_storable, c04_simple _, c05_array _ (by intro r hr; revert r; decide)⟩

/-- The hypotheses of `c90_false` are met: there are such files. -/
example : ∃ q, (readOn (writeMany [withoutNorms, exampleEmbeddings] 0).bytes 0 :
      Res (Embeddings Str VocabWrap StorageWrap F32 × Option Nat)) = .ok (withoutNorms, some q) ∧
    (Embeddings.read (writeMany [withoutNorms, exampleEmbeddings] 0).bytes q : Res (Embeddings Str VocabWrap StorageWrap F32)) =
      .err .format := by
  have := c90_false withoutNorms exampleEmbeddings withoutNorms_storable exampleEmbeddings_storable rfl [] []
  simpa using this

end Examples

/-! ## word2vec -/

/-- Nothing that starts with a line feed is a word2vec file. -/
theorem word2vec_newline {T F : Type} [Scalar F] [FloatBits F] (lossy : Bool) (d : Bytes) (pos : Nat) (h : d[pos]? = some 10) :
    (readWord2vecRaw lossy d pos : Res (Embeddings T SimpleVocab (NdArray F) F × Nat)) = .err .format := by
  have hd : ∃ rest, d.drop pos = 10 :: rest := by
    obtain ⟨hlt, hv⟩ := List.getElem?_eq_some_iff.mp h
    exact ⟨_, by rw [List.drop_eq_getElem_cons hlt, hv]⟩
  obtain ⟨rest, hd⟩ := hd
  have hnum : readNumber 32 d pos = .err .format := by
    have e0 : readNumber 32 d pos = (((Res.ofOption .format (utf8Decode (takeThrough 32 (d.drop pos)).dropLast)).map
        fun s => (s, pos + (takeThrough 32 (d.drop pos)).length)) >>= fun r =>
        (Res.ofOption .format (parseUsize r.1)).map fun n => (n, r.2)) := rfl
    rw [e0]
    cases hu : utf8Decode (takeThrough 32 (d.drop pos)).dropLast with
    | none => rfl
    | some s =>
      have hnone : parseUsize s = none := by
        cases hp : parseUsize s with
        | none => rfl
        | some n =>
          exfalso
          have hs := utf8_of_utf8Decode hu
          rw [hd, takeThrough, if_neg (by decide)] at hs
          unfold parseUsize at hp
          dsimp only at hp
          split at hp
          · cases hp
          · rename_i hne
            cases s with
            | nil => exact hne (.inl rfl)
            | cons c s =>
              have hc : c.toNat < 128 ∧ 43 ≤ c.toNat := by
                by_cases hcp : c = '+'
                · subst hcp; decide
                · have hdg : isDigitChar c = true := by
                    by_cases hx : stripPlus (c :: s) = c :: s
                    · rw [hx] at hne
                      simp only [List.all_cons, not_or, Decidable.not_not, Bool.and_eq_true] at hne
                      exact hne.2.1
                    · exact absurd (by unfold stripPlus; split <;> simp_all) hx
                  simp [isDigitChar] at hdg
                  omega
              have h0 : utf8 (c :: s) = UInt8.ofNat c.toNat :: utf8 s := by
                simp only [utf8, List.flatMap_cons, utf8EncodeChar_ascii hc.1]
                rfl
              rw [h0] at hs
              cases ht : takeThrough 32 rest with
              | nil => rw [ht] at hs; simp at hs
              | cons b l =>
                rw [ht] at hs
                simp only [List.dropLast_cons_cons, List.cons.injEq] at hs
                have := congrArg UInt8.toNat hs.1
                simp at this
                omega
      simp only [Res.ofOption_some, Res.map_ok, Res.ok_bind, hnone]
      rfl
  unfold readWord2vecRaw
  rw [Rd.bind_apply, hnum]
  rfl

/-- **C90** for word2vec: the line feed after the last vector stays in the stream, hence files can be read one after the other
only by skipping it; otherwise the second attempt ends with a format error. -/
theorem c90_word2vec_partial {T T' V S F : Type} [Vocab V] [Storage S F] [Scalar F] [FloatBits F]
    (hbits : ∀ x : F, FloatBits.ofBits (FloatBits.toBits x) = x)
    (e : Embeddings T V S F) (rs : List (Str × List F × F)) (h : e.iterWithNorms = .ok rs)
    (hlen : Vocab.wordsLen e.vocab = rs.length) (hnd : (rs.map (·.1)).Nodup)
    (hdims : ∀ r ∈ rs, r.2.1.length = e.dims) (hwords : ∀ r ∈ rs, Word2vecWord r.1)
    (hmem : 4 * (rs.length * e.dims) ≤ isizeMax) (hmem' : 24 * rs.length ≤ isizeMax) (hd : e.dims ≤ isizeMax)
    (hne : rs ≠ []) (un lossy : Bool) (pre post : Bytes) :
    ∃ (e' : Embeddings T' SimpleVocab (NdArray F) F) (q : Nat),
      readWord2vecRaw lossy (pre ++ (e.writeWord2vec un).bytes ++ post) pre.length = .ok (e', q) ∧
      e'.vocab.words = rs.map (·.1) ∧
      e'.storage.inner = ⟨e.dims, rs.map fun r => if un then r.2.1.map (Scalar.mul · r.2.2) else r.2.1⟩ ∧
      q + 1 = pre.length + (e.writeWord2vec un).bytes.length ∧
      (readWord2vecRaw lossy (pre ++ (e.writeWord2vec un).bytes ++ post) q : Res (Embeddings T' SimpleVocab (NdArray F) F × Nat)) =
        .err .format := by
  obtain ⟨bs, hbs, hr⟩ := writeWord2vec_readsAt (T' := T') hbits e rs h hlen hnd hdims hwords hmem hmem' hd un lossy pre.length
  rw [if_neg hne] at hbs
  rw [hbs]
  refine ⟨_, _, by rw [List.append_assoc, List.append_assoc]; exact hr pre _ rfl, rfl, rfl, by simp; omega, word2vec_newline _ _ _ ?_⟩
  rw [List.append_assoc, List.append_assoc, List.getElem?_append_right (by omega), List.getElem?_append_right (by omega)]
  simp

section Examples
attribute [local instance] exampleScalar

/-- The hypotheses of `c90_word2vec_partial` are met. -/
example (un lossy : Bool) (pre post : Bytes) :
    ∃ (e' : Embeddings Str SimpleVocab (NdArray F32) F32) (q : Nat),
      readWord2vecRaw lossy (pre ++ (exampleW2v.writeWord2vec un).bytes ++ post) pre.length = .ok (e', q) ∧
      (readWord2vecRaw lossy (pre ++ (exampleW2v.writeWord2vec un).bytes ++ post) q :
        Res (Embeddings Str SimpleVocab (NdArray F32) F32 × Nat)) = .err .format := by
  obtain ⟨e', q, h1, -, -, -, h5⟩ := c90_word2vec_partial (T' := Str) (fun _ => rfl) exampleW2v
    [(['a'], [1, 2, 3], 7), (['b', 'é'], [4, 5, 0x20202020], 8)] (by decide +kernel) (by decide +kernel)
    (by decide +kernel) (by decide +kernel)
    (by
      intro r hr
      simp only [List.mem_cons, List.not_mem_nil, or_false] at hr
      rcases hr with rfl | rfl <;> exact ⟨by decide, by decide +revert, by decide +revert⟩)
    (by decide) (by decide) (by decide) (by simp) un lossy pre post
  exact ⟨e', q, h1, h5⟩

end Examples

end FF
