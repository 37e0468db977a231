import Verif.Props.Accepted
import Verif.Props.EmbeddingsIO
import Verif.Lemmas.ResList

/-!
# C88: what an I/O error means; C89: where in a file the data lies

For data that does not change, an I/O error of a reader should be the request for more data; it is, with one exception. And
what is read should not depend on the position of the data; it does not if the data is moved by a multiple of four bytes.
-/

namespace FF

open Rd Embeddings

/-! ## I/O errors -/

/-- A reader that goes forward only. After an I/O error, there is a continuation of the data, no longer than necessary, with
which there is none. -/
structure Asks {α : Type} (p : Rd α) : Prop extends Mono p where
  forward : ∀ d pos a q, p d pos = .ok (a, q) → pos ≤ q
  asks : ∀ d pos, p d pos = .err .io → ∃ e, p (d ++ e) pos ≠ .err .io ∧
    ∀ a q, p (d ++ e) pos = .ok (a, q) → (d ++ e).length ≤ q

/-- A reader for which there is such a continuation unless the data is bad in the sense of `B`. -/
structure AsksBut {α : Type} (p : Rd α) (B : Bytes → Nat → Prop) : Prop extends Mono p where
  asks : ∀ d pos, p d pos = .err .io → (∃ e, p (d ++ e) pos ≠ .err .io) ∨ B d pos
  bad : ∀ d pos, B d pos → p d pos = .err .io
  inside : ∀ d pos, B d pos → pos < d.length

namespace Asks
variable {α β : Type}

theorem but {p : Rd α} (h : Asks p) : AsksBut p fun _ _ => False :=
  ⟨h.toMono, fun d pos h' => .inl ((h.asks d pos h').imp fun _ h => h.1), fun _ _ h => h.elim, fun _ _ h => h.elim⟩

theorem of_no_io {p : Rd α} (hm : Mono p) (hf : ∀ d pos a q, p d pos = .ok (a, q) → pos ≤ q)
    (h : ∀ d pos, p d pos ≠ .err .io) : Asks p :=
  ⟨hm, hf, fun d pos h' => absurd h' (h d pos)⟩

theorem pure (a : α) : Asks (pure a : Rd α) :=
  of_no_io (Mono.pure a) (fun _ _ _ _ h => by cases h; exact Nat.le_refl _) fun _ _ h => by cases h

theorem lift {r : Res α} (h : r ≠ .err .io) : Asks (lift r) := by
  refine of_no_io (Mono.lift r) (fun d pos a q h => ?_) fun d pos h' => h ?_
  · exact Nat.le_of_eq (Rd.lift_ok.mp h).2.symm
  · cases r with
    | ok a => cases h'
    | err e => simpa using h'
    | panic => cases h'

theorem lift_noErr {r : Res α} (h : Res.NoErr r) : Asks (Rd.lift r) := lift (h _)
theorem lift_assert (c : Bool) : Asks (Rd.lift (Res.assert c)) := lift_noErr (Res.noErr_assert c)
theorem lift_option {e : Err} (he : e ≠ .io) (o : Option α) : Asks (Rd.lift (Res.ofOption e o)) :=
  lift (by cases o <;> simp [Res.ofOption, he])

theorem fail {e : Err} (h : e ≠ .io) : Asks (fail e : Rd α) :=
  of_no_io (Mono.fail e) (fun _ _ _ _ h => by cases h) fun d pos h' => h (by simpa using h')

theorem alloc (s n : Nat) : Asks (alloc s n) := lift_assert _
theorem allocArray (size : Nat) (dims : List Nat) : Asks (allocArray size dims) := lift_assert _

theorem skip_pad : Asks (position >>= fun p => skip (padding 4 p)) :=
  of_no_io (Mono.position.bind fun _ => Mono.skip _) (fun _ _ _ _ h => by cases h; exact Nat.le_add_right _ _)
    fun _ _ h => by cases h

theorem bind {p : Rd α} {f : α → Rd β} (hp : Asks p) (hf : ∀ a, Asks (f a)) : Asks (p >>= f) := by
  refine ⟨hp.toMono.bind fun a => (hf a).toMono, fun d pos b q h => ?_, fun d pos h => ?_⟩
  · obtain ⟨a, p1, h1, h2⟩ := Rd.bind_ok.mp h
    exact Nat.le_trans (hp.forward _ _ _ _ h1) ((hf a).forward _ _ _ _ h2)
  have key : ∀ e, p (d ++ e) pos ≠ .err .io →
      (∀ a q, p (d ++ e) pos = .ok (a, q) → f a (d ++ e) q = .err .io ∨ (d ++ e).length ≤ q) →
      ∃ e, (p >>= f) (d ++ e) pos ≠ .err .io ∧ ∀ a q, (p >>= f) (d ++ e) pos = .ok (a, q) → (d ++ e).length ≤ q := by
    intro e hp' hl
    have hm : ∀ e', p (d ++ e ++ e') pos = p (d ++ e) pos := fun e' => (hp.mono (d ++ e) e' pos).resolve_left hp'
    cases hr : p (d ++ e) pos with
    | ok r =>
      have hb : ∀ e', (p >>= f) (d ++ (e ++ e')) pos = f r.1 (d ++ (e ++ e')) r.2 := by
        intro e'
        rw [bind_apply, ← List.append_assoc, hm, hr]
        rfl
      by_cases h2 : f r.1 (d ++ e) r.2 = .err .io
      · obtain ⟨e', he', hl'⟩ := (hf r.1).asks (d ++ e) r.2 h2
        rw [List.append_assoc] at he' hl'
        exact ⟨e ++ e', by rw [hb]; exact he', by rw [hb]; exact hl'⟩
      · have hb := hb []
        rw [List.append_nil] at hb
        refine ⟨e, by rw [hb]; exact h2, fun b q h => ?_⟩
        rw [hb] at h
        rcases hl r.1 r.2 hr with h3 | h3
        · exact absurd h3 h2
        · exact Nat.le_trans h3 ((hf r.1).forward _ _ _ _ h)
    | err x =>
      refine ⟨e, ?_, ?_⟩
      · rw [bind_apply, hr]
        rw [hr] at hp'
        simpa using hp'
      · intro a q h
        rw [bind_apply, hr] at h
        cases h
    | panic =>
      refine ⟨e, ?_, ?_⟩
      · rw [bind_apply, hr]
        simp
      · intro a q h
        rw [bind_apply, hr] at h
        cases h
  by_cases hp' : p d pos = .err .io
  · obtain ⟨e, he, hl⟩ := hp.asks d pos hp'
    exact key e he fun a q h => .inr (hl a q h)
  · refine key [] (by rwa [List.append_nil]) fun a q h' => .inl ?_
    rw [List.append_nil] at h' ⊢
    rw [bind_apply, h'] at h
    exact h

theorem readExact (n : Nat) : Asks (readExact n) := by
  refine ⟨Mono.readExact n, fun d pos a q h => ?_, fun d pos h => ⟨List.replicate (pos + n - d.length) 0, ?_⟩⟩
  · rw [(readExact_ok h).1]; exact Nat.le_add_right _ _
  · have h0 : n ≠ 0 := by
      intro h0
      simp [Rd.readExact, h0] at h
    have h1 : d.length < pos + n := by
      refine Nat.lt_of_not_le fun h1 => ?_
      simp [Rd.readExact, h0, h1] at h
    have h2 : (d ++ List.replicate (pos + n - d.length) 0).length = pos + n := by simp; omega
    unfold Rd.readExact
    rw [if_neg h0, if_pos (by rw [h2]; exact Nat.le_refl _)]
    refine ⟨by simp, fun a q h => ?_⟩
    cases h
    exact Nat.le_of_eq h2

theorem readU32 : Asks readU32 := (readExact 4).bind fun _ => pure _
theorem readU64 : Asks readU64 := (readExact 8).bind fun _ => pure _
theorem readF32s (n) : Asks (readF32s n) := (readExact _).bind fun _ => pure _

theorem replicateM {p : Rd α} (hp : Asks p) (n : Nat) : Asks (replicateM n p) := by
  induction n with
  | zero => exact pure _
  | succ n ih => exact hp.bind fun _ => ih.bind fun _ => pure _

theorem readChunkId : Asks readChunkId := readU32.bind fun _ => lift_option (by decide) _

theorem ensureChunkType (i : ChunkId) : Asks (ensureChunkType i) := by
  refine readChunkId.bind fun c => ?_
  split
  · exact fail (by decide)
  · exact pure _

theorem ensureDataType (i : Nat) : Asks (ensureDataType i) := by
  refine readU32.bind fun c => ?_
  split
  · exact fail (by decide)
  · exact pure _

theorem readString : Asks readString :=
  readU32.bind fun _ => (alloc _ _).bind fun _ => (readExact _).bind fun _ => lift_option (by decide) _

theorem readVocabItems (n : Nat) : Asks (readVocabItems n) := (alloc _ _).bind fun _ => readString.replicateM n

theorem pad_then {f : Rd β} (hf : Asks f) : Asks (position >>= fun p => skip (padding 4 p) >>= fun _ => f) :=
  skip_pad.bind fun _ => hf

end Asks

/-- Decomposes a goal `Asks` along the structure of a reader. -/
macro "asks_tac" : tactic => `(tactic|
  repeat' (first
    | exact Asks.pure _ | exact Asks.lift_assert _ | exact Asks.lift_option (by decide) _ | exact Asks.fail (by decide)
    | exact Asks.alloc _ _ | exact Asks.allocArray _ _ | exact Asks.readExact _ | exact Asks.readU32
    | exact Asks.readU64 | exact Asks.readF32s _ | exact Asks.ensureChunkType _ | exact Asks.ensureDataType _
    | exact Asks.readVocabItems _ | exact Asks.readString | exact Asks.readChunkId
    | apply Asks.replicateM | assumption
    | (apply Asks.pad_then) | (apply Asks.bind) | split | (intro _)))

theorem asks_header : Asks Header.read := by unfold Header.read; asks_tac

theorem asks_metadata {T : Type} [Toml T] : Asks (readMetadata : Rd (Metadata T)) := by unfold readMetadata; asks_tac

theorem asks_optMetadata {T : Type} [Toml T] : Asks (readOptMetadata : Rd (Option (Metadata T))) := by
  unfold readOptMetadata
  have := asks_header
  have := asks_metadata (T := T)
  asks_tac

theorem asks_simple : Asks SimpleVocab.read := by
  unfold SimpleVocab.read
  asks_tac
  refine Asks.lift_noErr ?_
  unfold SimpleVocab.new
  exact Res.noErr_bind (Res.noErr_assert _) fun _ => Res.noErr_ok _

theorem noErr_newWithBoundaries {I : Type} [Indexer I] (h : ∀ ix : I, Res.NoErr (Indexer.upperBound ix)) (ws : List Str)
    (m M : Nat) (ix : I) (bow eow : Str) : Res.NoErr (SubwordVocab.newWithBoundaries ws m M ix bow eow) := by
  unfold SubwordVocab.newWithBoundaries
  exact Res.noErr_bind (Res.noErr_assert _) fun _ => Res.noErr_bind (h ix) fun _ =>
    Res.noErr_bind (Res.noErr_assert _) fun _ => Res.noErr_ok _

theorem asks_bucketed {I : Type} [BucketIndexer I] (h : ∀ ix : I, Res.NoErr (Indexer.upperBound ix))
    (hn : ∀ n, Res.NoErr (BucketIndexer.newBuckets n : Res I)) (id : ChunkId) :
    Asks (readBucketed id : Rd (SubwordVocab I)) := by
  unfold readBucketed
  asks_tac
  · exact Asks.lift_noErr (hn _)
  · exact Asks.lift_noErr (noErr_newWithBoundaries h _ _ _ _ _ _)

theorem asks_bucket : Asks (readChunk : Rd BucketSubwordVocab) := by
  refine asks_bucketed (fun ix => ?_) (fun n => ?_) _
  · show Res.NoErr (HashIndexer.upperBound ix)
    unfold HashIndexer.upperBound
    split
    · exact Res.noErr_ok _
    · exact Res.noErr_panic
  · show Res.NoErr (HashIndexer.new n)
    unfold HashIndexer.new
    exact Res.noErr_bind (Res.noErr_assert _) fun _ => Res.noErr_ok _

theorem asks_fastText : Asks (readChunk : Rd FastTextSubwordVocab) := by
  refine asks_bucketed (fun ix => Res.noErr_ok _) (fun n => ?_) _
  show Res.NoErr (FastTextIndexer.new n)
  unfold FastTextIndexer.new
  exact Res.noErr_bind (Res.noErr_assert _) fun _ => Res.noErr_ok _

theorem asks_explicit : Asks readExplicit := by
  unfold readExplicit readNgrams
  have : Asks readNgram := by unfold readNgram; asks_tac
  asks_tac
  · refine Asks.lift_noErr ?_
    rw [newWithIndices_eq]
    split
    · exact Res.noErr_ok _
    · exact Res.noErr_panic
  · exact Asks.lift_noErr (noErr_newWithBoundaries (fun ix => Res.noErr_ok _) _ _ _ _ _ _)

theorem asks_array : Asks readNdArray := by unfold readNdArray readNdArrayHead; asks_tac

theorem asks_quantized : Asks readQuantizedArray := by
  unfold readQuantizedArray readQuantizedHead readPq readProjection readQuantizers readQuantizedNorms
  asks_tac
  all_goals refine Asks.lift_noErr ?_
  all_goals unfold Pq.new
  all_goals exact Res.noErr_bind (Res.noErr_assert _) fun _ => Res.noErr_bind (Res.noErr_assert _) fun _ => Res.noErr_ok _

theorem asks_norms : Asks readNorms := by unfold readNorms; asks_tac

namespace AsksBut
variable {α β : Type}

theorem congr {p : Rd α} {B C : Bytes → Nat → Prop} (h : AsksBut p B) (hc : ∀ d pos, B d pos ↔ C d pos) : AsksBut p C :=
  ⟨h.toMono, fun d pos h' => (h.asks d pos h').imp id (hc d pos).mp, fun d pos h' => h.bad d pos ((hc d pos).mpr h'),
    fun d pos h' => h.inside d pos ((hc d pos).mpr h')⟩

/-- A reader that asks, followed by one that may find bad data. -/
theorem bind {p : Rd α} {f : α → Rd β} {B : α → Bytes → Nat → Prop} (hp : Asks p) (hf : ∀ a, AsksBut (f a) (B a)) :
    AsksBut (p >>= f) fun d pos => ∃ a q, p d pos = .ok (a, q) ∧ B a d q := by
  refine ⟨hp.toMono.bind fun a => (hf a).toMono, fun d pos h => ?_, ?_, ?_⟩
  · have key : ∀ e, p (d ++ e) pos ≠ .err .io →
        (∃ e, (p >>= f) (d ++ e) pos ≠ .err .io) ∨ ∃ a q, p (d ++ e) pos = .ok (a, q) ∧ B a (d ++ e) q := by
      intro e hp'
      have hm : ∀ e', p (d ++ e ++ e') pos = p (d ++ e) pos := fun e' => (hp.mono (d ++ e) e' pos).resolve_left hp'
      cases hr : p (d ++ e) pos with
      | ok r =>
        have hb : ∀ e', (p >>= f) (d ++ (e ++ e')) pos = f r.1 (d ++ (e ++ e')) r.2 := by
          intro e'
          rw [bind_apply, ← List.append_assoc, hm, hr]
          rfl
        by_cases h2 : f r.1 (d ++ e) r.2 = .err .io
        · rcases (hf r.1).asks (d ++ e) r.2 h2 with ⟨e', he'⟩ | h3
          · rw [List.append_assoc] at he'
            exact .inl ⟨e ++ e', by rw [hb]; exact he'⟩
          · exact .inr ⟨r.1, r.2, rfl, h3⟩
        · have hb := hb []
          rw [List.append_nil] at hb
          exact .inl ⟨e, by rw [hb]; exact h2⟩
      | err x =>
        refine .inl ⟨e, ?_⟩
        rw [bind_apply, hr]
        rw [hr] at hp'
        simpa using hp'
      | panic =>
        refine .inl ⟨e, ?_⟩
        rw [bind_apply, hr]
        simp
    by_cases hp' : p d pos = .err .io
    · obtain ⟨e, he, hl⟩ := hp.asks d pos hp'
      rcases key e he with h1 | ⟨a, q, h1, h2⟩
      · exact .inl h1
      · exact absurd ((hf a).inside _ _ h2) (Nat.not_lt.mpr (hl a q h1))
    · have := key [] (by rwa [List.append_nil])
      rwa [List.append_nil] at this
  · rintro d pos ⟨a, q, h1, h2⟩
    rw [bind_apply, h1]
    exact (hf a).bad d q h2
  · rintro d pos ⟨a, q, h1, h2⟩
    exact Nat.lt_of_le_of_lt (hp.forward _ _ _ _ h1) ((hf a).inside _ _ h2)

/-- A reader that may find bad data, followed by one that does not. -/
theorem bind_plain {p : Rd α} {f : α → Rd β} {B : Bytes → Nat → Prop} (hp : AsksBut p B)
    (hf : ∀ a, AsksBut (f a) fun _ _ => False) : AsksBut (p >>= f) B := by
  refine ⟨hp.toMono.bind fun a => (hf a).toMono, fun d pos h => ?_, fun d pos h => ?_, hp.inside⟩
  · have key : ∀ e, p (d ++ e) pos ≠ .err .io → ∃ e, (p >>= f) (d ++ e) pos ≠ .err .io := by
      intro e hp'
      have hm : ∀ e', p (d ++ e ++ e') pos = p (d ++ e) pos := fun e' => (hp.mono (d ++ e) e' pos).resolve_left hp'
      cases hr : p (d ++ e) pos with
      | ok r =>
        have hb : ∀ e', (p >>= f) (d ++ (e ++ e')) pos = f r.1 (d ++ (e ++ e')) r.2 := by
          intro e'
          rw [bind_apply, ← List.append_assoc, hm, hr]
          rfl
        by_cases h2 : f r.1 (d ++ e) r.2 = .err .io
        · obtain ⟨e', he'⟩ := ((hf r.1).asks (d ++ e) r.2 h2).resolve_right id
          rw [List.append_assoc] at he'
          exact ⟨e ++ e', by rw [hb]; exact he'⟩
        · have hb := hb []
          rw [List.append_nil] at hb
          exact ⟨e, by rw [hb]; exact h2⟩
      | err x =>
        refine ⟨e, ?_⟩
        rw [bind_apply, hr]
        rw [hr] at hp'
        simpa using hp'
      | panic =>
        refine ⟨e, ?_⟩
        rw [bind_apply, hr]
        simp
    by_cases hp' : p d pos = .err .io
    · rcases hp.asks d pos hp' with ⟨e, he⟩ | h1
      · exact .inl (key e he)
      · exact .inr h1
    · exact .inl (key [] (by rwa [List.append_nil]))
  · rw [bind_apply, hp.bad d pos h]
    rfl

end AsksBut

/-- Specification: from position `q`, there is something that is not the beginning of a number from one to four. -/
def BadHashes (d : Bytes) (q : Nat) : Prop :=
  q < d.length ∧ ∀ h, 1 ≤ h → h ≤ 4 → ¬ (d.drop q).take 4 <+: Layout.le32 h

/-- Specification: a floret chunk at position `pos` whose number of hash functions is not from one to four. -/
def BadFloret (d : Bytes) (pos : Nat) : Prop := u32At d pos = some 9 ∧ BadHashes d (pos + 28)

theorem u32At_eq_le32 {d : Bytes} {q h : Nat} : u32At d q = some h ↔ h < 2 ^ 32 ∧ (d.drop q).take 4 = Layout.le32 h := by
  constructor
  · intro hu
    refine ⟨u32At_lt hu, ?_⟩
    unfold u32At sliceAt at hu
    split at hu
    · rename_i hl
      have := le32_leVal (bs := (d.drop q).take 4) (by simp; omega)
      simp only [Option.map_some, Option.some.injEq] at hu
      rw [← hu, this]
    · simp at hu
  · rintro ⟨hh, hd⟩
    have hl : q + 4 ≤ d.length := by
      have := congrArg List.length hd
      simp at this
      omega
    unfold u32At sliceAt
    rw [if_pos hl, Option.map_some, hd, leVal_le32 hh]

theorem asks_hashes {α : Type} {f : Nat → Rd α} (hf : ∀ h, Asks (f h)) :
    AsksBut (readU32 >>= fun h => if ¬ (1 ≤ h ∧ h ≤ 4) then fail .io else f h) BadHashes := by
  have good : ∀ (d : Bytes) q h, 1 ≤ h → h ≤ 4 → u32At d q = some h →
      ∃ e, (readU32 >>= fun h => if ¬ (1 ≤ h ∧ h ≤ 4) then fail .io else f h) (d ++ e) q ≠ .err .io := by
    intro d q h h1 h4 hu
    have hb : ∀ e, (readU32 >>= fun h => if ¬ (1 ≤ h ∧ h ≤ 4) then fail .io else f h) (d ++ e) q = f h (d ++ e) (q + 4) := by
      intro e
      have := (Mono.readU32.mono d e q).resolve_left (by rw [readU32_some hu]; simp)
      rw [readU32_some hu] at this
      rw [bind_apply, this, Res.ok_bind]
      simp only
      rw [if_neg (not_not_intro ⟨h1, h4⟩)]
    by_cases h2 : f h d (q + 4) = .err .io
    · obtain ⟨e, he, -⟩ := (hf h).asks d (q + 4) h2
      exact ⟨e, by rw [hb]; exact he⟩
    · exact ⟨[], by rw [hb, List.append_nil]; exact h2⟩
  refine ⟨?_, fun d q h => ?_, fun d q h => ?_, fun d q h => h.1⟩
  · refine Mono.readU32.bind fun h => ?_
    split
    · exact Mono.fail _
    · exact (hf h).toMono
  · by_cases hb : BadHashes d q
    · exact .inr hb
    left
    -- the four bytes begin like a good number
    obtain ⟨h, h1, h4, e, he⟩ : ∃ h, 1 ≤ h ∧ h ≤ 4 ∧ ∃ e, ((d ++ e).drop q).take 4 = Layout.le32 h := by
      by_cases hl : q < d.length
      · have : ∃ h, 1 ≤ h ∧ h ≤ 4 ∧ (d.drop q).take 4 <+: Layout.le32 h := by
          refine Classical.byContradiction fun hn => hb ⟨hl, fun h h1 h4 hp => hn ⟨h, h1, h4, hp⟩⟩
        obtain ⟨h, h1, h4, e, he⟩ := this
        refine ⟨h, h1, h4, e, ?_⟩
        rw [List.drop_append_of_le_length (Nat.le_of_lt hl), List.take_append, ← he]
        congr 1
        have := congrArg List.length he
        simp at this
        apply List.take_of_length_le
        simp
        omega
      · refine ⟨1, by omega, by omega, List.replicate (q - d.length) 0 ++ Layout.le32 1, ?_⟩
        rw [← List.append_assoc, List.drop_append, List.drop_eq_nil_of_le (by simp; omega)]
        have : q - (d ++ List.replicate (q - d.length) 0).length = 0 := by simp; omega
        rw [this]
        rfl
    obtain ⟨e', he'⟩ := good (d ++ e) q h h1 h4 (u32At_eq_le32.mpr ⟨by omega, he⟩)
    exact ⟨e ++ e', by rwa [← List.append_assoc]⟩
  · cases hu : u32At d q with
    | none => rw [bind_apply, readU32_none hu]; rfl
    | some x =>
      rw [bind_apply, readU32_some hu]
      have : ¬ (1 ≤ x ∧ x ≤ 4) := by
        rintro ⟨h1, h4⟩
        refine h.2 x h1 h4 ?_
        rw [(u32At_eq_le32.mp hu).2]
        exact List.prefix_refl _
      rw [Res.ok_bind]
      simp only
      rw [if_pos this]
      rfl

theorem asks_floret : AsksBut readFloret BadFloret := by
  unfold readFloret
  refine AsksBut.congr (AsksBut.bind (Asks.ensureChunkType _) fun _ => AsksBut.bind Asks.readU64 fun _ =>
    AsksBut.bind Asks.readU32 fun _ => AsksBut.bind Asks.readU32 fun _ => AsksBut.bind Asks.readU64 fun _ =>
    asks_hashes fun _ => ?_) fun d pos => ?_
  · asks_tac
    · refine Asks.lift_noErr ?_
      unfold FloretIndexer.new
      exact Res.noErr_bind (Res.noErr_assert _) fun _ => Res.noErr_bind (Res.noErr_assert _) fun _ => Res.noErr_ok _
    · exact Asks.lift_noErr (noErr_newWithBoundaries (fun ix => Res.noErr_ok _) _ _ _ _ _ _)
  · unfold BadFloret
    constructor
    · rintro ⟨u, q, h1, _, q1, h2, _, q2, h3, _, q3, h4, _, q4, h5, h6⟩
      have h1 := ensureChunkType_ok h1
      have h2 := (readU64_ok h2).2
      have h3 := (readU32_ok h3).2
      have h4 := (readU32_ok h4).2
      have h5 := (readU64_ok h5).2
      have : q4 = pos + 28 := by omega
      exact ⟨h1.1, this ▸ h6⟩
    · rintro ⟨h1, h2⟩
      have hl := h2.1
      have e32 : ∀ q, q + 4 ≤ d.length → ∃ a, u32At d q = some a := by
        intro q h
        exact ⟨_, by unfold u32At sliceAt; rw [if_pos h]; rfl⟩
      have e64 : ∀ q, q + 8 ≤ d.length → ∃ a, u64At d q = some a := by
        intro q h
        exact ⟨_, by unfold u64At sliceAt; rw [if_pos h]; rfl⟩
      obtain ⟨a1, h3⟩ := e64 (pos + 4) (by omega)
      obtain ⟨a2, h4⟩ := e32 (pos + 12) (by omega)
      obtain ⟨a3, h5⟩ := e32 (pos + 16) (by omega)
      obtain ⟨a4, h6⟩ := e64 (pos + 20) (by omega)
      exact ⟨(), pos + 4, ensureChunkType_some (by decide) h1, a1, pos + 12, readU64_some h3, a2, pos + 16,
        readU32_some h4, a3, pos + 20, readU32_some h5, a4, pos + 28, readU64_some h6, h2⟩

theorem readChunkId_ok {d : Bytes} {pos q : Nat} {i : ChunkId} (h : readChunkId d pos = .ok (i, q)) :
    u32At d pos = some i.code ∧ q = pos + 4 := by
  rw [readChunkId_eq] at h
  cases hu : u32At d pos with
  | none => simp [hu] at h
  | some c =>
    simp only [hu] at h
    cases hc : ChunkId.ofCode c with
    | none => simp [hc] at h
    | some j =>
      simp [hc] at h
      exact ⟨by rw [← h.1, ofCode_eq_some hc], h.2.symm⟩

/-- Looking at the chunk identifier first does not change what is asked for. -/
theorem asks_peek {α : Type} {f : ChunkId → Rd α} {B : Bytes → Nat → Prop} (hf : ∀ i, i ≠ .floretSubwordVocab → Asks (f i))
    (hB : AsksBut (f .floretSubwordVocab) B)
    (hi : ∀ d pos, B d pos → u32At d pos = some 9 ∧ pos + 4 < d.length) : AsksBut (peekChunkId >>= f) B := by
  have hm : ∀ i, Mono (f i) := fun i => by
    by_cases h : i = .floretSubwordVocab
    · rw [h]; exact hB.toMono
    · exact (hf i h).toMono
  have asks : ∀ i d pos, f i d pos = .err .io → (∃ e, f i (d ++ e) pos ≠ .err .io) ∨ B d pos := by
    intro i d pos h
    by_cases hi : i = .floretSubwordVocab
    · subst hi; exact hB.asks d pos h
    · exact .inl (((hf i hi).asks d pos h).imp fun _ h => h.1)
  refine ⟨peekChunkId_mono.bind hm, fun d pos h => ?_, fun d pos h => ?_, hB.inside⟩
  · have key : ∀ e, readChunkId (d ++ e) pos ≠ .err .io →
        (∃ e, (peekChunkId >>= f) (d ++ e) pos ≠ .err .io) ∨ ∃ a q, readChunkId (d ++ e) pos = .ok (a, q) ∧
          B (d ++ e) pos := by
      intro e hp'
      have hm : ∀ e', readChunkId (d ++ e ++ e') pos = readChunkId (d ++ e) pos :=
        fun e' => (readChunkId_mono.mono (d ++ e) e' pos).resolve_left hp'
      cases hr : readChunkId (d ++ e) pos with
      | ok r =>
        have hb : ∀ e', (peekChunkId >>= f) (d ++ (e ++ e')) pos = f r.1 (d ++ (e ++ e')) pos := by
          intro e'
          rw [bind_apply, ← List.append_assoc]
          unfold peekChunkId
          rw [hm, hr]
          rfl
        by_cases h2 : f r.1 (d ++ e) pos = .err .io
        · rcases asks r.1 (d ++ e) pos h2 with ⟨e', he'⟩ | h3
          · rw [List.append_assoc] at he'
            exact .inl ⟨e ++ e', by rw [hb]; exact he'⟩
          · exact .inr ⟨r.1, r.2, rfl, h3⟩
        · have hb := hb []
          rw [List.append_nil] at hb
          exact .inl ⟨e, by rw [hb]; exact h2⟩
      | err x =>
        refine .inl ⟨e, ?_⟩
        rw [bind_apply]
        unfold peekChunkId
        rw [hr]
        rw [hr] at hp'
        simpa using hp'
      | panic =>
        refine .inl ⟨e, ?_⟩
        rw [bind_apply]
        unfold peekChunkId
        rw [hr]
        simp
    by_cases hp' : readChunkId d pos = .err .io
    · obtain ⟨e, he, hl⟩ := Asks.readChunkId.asks d pos hp'
      rcases key e he with h1 | ⟨a, q, h1, h2⟩
      · exact .inl h1
      · have := hl a q h1
        have := (readChunkId_ok h1).2
        have := (hi _ _ h2).2
        omega
    · rcases key [] (by rwa [List.append_nil]) with h1 | ⟨a, q, h1, h2⟩
      · exact .inl h1
      · rw [List.append_nil] at h2
        exact .inr h2
  · have : peekChunkId d pos = .ok (.floretSubwordVocab, pos) := by
      unfold peekChunkId
      rw [readChunkId_eq, (hi _ _ h).1]
      rfl
    rw [bind_apply, this]
    exact hB.bad d pos h

theorem asks_vocabWrap : AsksBut readVocabWrap BadFloret := by
  unfold readVocabWrap
  refine asks_peek (fun i hi => ?_) ?_ fun d pos h => ⟨h.1, by have := h.2.1; omega⟩
  · cases i
    case floretSubwordVocab => exact absurd rfl hi
    case simpleVocab => exact asks_simple.bind fun _ => Asks.pure _
    case bucketSubwordVocab => exact asks_bucket.bind fun _ => Asks.pure _
    case fastTextSubwordVocab => exact asks_fastText.bind fun _ => Asks.pure _
    case explicitSubwordVocab => exact asks_explicit.bind fun _ => Asks.pure _
    all_goals exact Asks.fail (by decide)
  · exact asks_floret.bind_plain fun _ => (Asks.pure _).but

theorem asks_storageWrap : AsksBut readStorageWrap fun _ _ => False := by
  unfold readStorageWrap
  refine asks_peek (fun i hi => ?_) ?_ fun d pos h => h.elim
  · cases i
    case ndArray => exact asks_array.bind fun _ => Asks.pure _
    case quantizedArray => exact asks_quantized.bind fun _ => Asks.pure _
    all_goals exact Asks.fail (by decide)
  · exact (Asks.fail (by decide)).but

theorem BadHashes.append {d : Bytes} {q : Nat} (h : BadHashes d q) (e : Bytes) : BadHashes (d ++ e) q := by
  refine ⟨by simp only [List.length_append]; have := h.1; omega, fun x h1 h4 hp => h.2 x h1 h4 ?_⟩
  refine List.IsPrefix.trans ?_ hp
  rw [List.drop_append_of_le_length (Nat.le_of_lt h.1), List.take_append]
  exact List.prefix_append _ _

theorem BadFloret.append {d : Bytes} {pos : Nat} (h : BadFloret d pos) (e : Bytes) : BadFloret (d ++ e) pos := by
  refine ⟨?_, h.2.append e⟩
  have := (Mono.readU32.mono d e pos).resolve_left (by rw [readU32_some h.1]; simp)
  rw [readU32_some h.1] at this
  exact (readU32_ok this).1

/-- C88: for the readers without exception, an I/O error is the request for more data: there is one exactly if the outcome is
not the same for all continuations of the data. -/
theorem Asks.io_iff {α : Type} {p : Rd α} (h : AsksBut p fun _ _ => False) (d : Bytes) (pos : Nat) :
    p d pos = .err .io ↔ ∃ e, p (d ++ e) pos ≠ p d pos := by
  constructor
  · intro h'
    obtain ⟨e, he⟩ := (h.asks d pos h').resolve_right id
    exact ⟨e, by rw [h']; exact he⟩
  · rintro ⟨e, he⟩
    exact (h.mono d e pos).resolve_right he

/-- C88, header, metadata, the vocabularies except floret's, matrices, quantized matrices and norms: an I/O error is reported
exactly if the data ends too early, in the sense that the outcome depends on how the data continues. -/
theorem c88_partial {T : Type} [Toml T] (d : Bytes) (pos : Nat) :
    (Header.read d pos = .err .io ↔ ∃ e, Header.read (d ++ e) pos ≠ Header.read d pos) ∧
    ((readMetadata : Rd (Metadata T)) d pos = .err .io ↔
      ∃ e, (readMetadata : Rd (Metadata T)) (d ++ e) pos ≠ readMetadata d pos) ∧
    ((readOptMetadata : Rd (Option (Metadata T))) d pos = .err .io ↔
      ∃ e, (readOptMetadata : Rd (Option (Metadata T))) (d ++ e) pos ≠ readOptMetadata d pos) ∧
    ((readChunk : Rd SimpleVocab) d pos = .err .io ↔ ∃ e, (readChunk : Rd SimpleVocab) (d ++ e) pos ≠ readChunk d pos) ∧
    ((readChunk : Rd BucketSubwordVocab) d pos = .err .io ↔
      ∃ e, (readChunk : Rd BucketSubwordVocab) (d ++ e) pos ≠ readChunk d pos) ∧
    ((readChunk : Rd FastTextSubwordVocab) d pos = .err .io ↔
      ∃ e, (readChunk : Rd FastTextSubwordVocab) (d ++ e) pos ≠ readChunk d pos) ∧
    ((readChunk : Rd ExplicitSubwordVocab) d pos = .err .io ↔
      ∃ e, (readChunk : Rd ExplicitSubwordVocab) (d ++ e) pos ≠ readChunk d pos) ∧
    ((readChunk : Rd (NdArray F32)) d pos = .err .io ↔ ∃ e, (readChunk : Rd (NdArray F32)) (d ++ e) pos ≠ readChunk d pos) ∧
    ((readChunk : Rd (QuantizedArray F32)) d pos = .err .io ↔
      ∃ e, (readChunk : Rd (QuantizedArray F32)) (d ++ e) pos ≠ readChunk d pos) ∧
    ((readChunk : Rd StorageWrap) d pos = .err .io ↔ ∃ e, (readChunk : Rd StorageWrap) (d ++ e) pos ≠ readChunk d pos) ∧
    ((readChunk : Rd (NdNorms F32)) d pos = .err .io ↔
      ∃ e, (readChunk : Rd (NdNorms F32)) (d ++ e) pos ≠ readChunk d pos) :=
  ⟨Asks.io_iff asks_header.but d pos, Asks.io_iff asks_metadata.but d pos, Asks.io_iff asks_optMetadata.but d pos,
    Asks.io_iff asks_simple.but d pos, Asks.io_iff asks_bucket.but d pos, Asks.io_iff asks_fastText.but d pos,
    Asks.io_iff asks_explicit.but d pos, Asks.io_iff asks_array.but d pos, Asks.io_iff asks_quantized.but d pos,
    Asks.io_iff asks_storageWrap d pos, Asks.io_iff asks_norms.but d pos⟩

/-- C88, floret vocabularies, alone and as one of several kinds: an I/O error is reported if the data ends too early or if the
number of hash functions is not from one to four; in the second case no continuation helps. -/
theorem c88_floret_partial (d : Bytes) (pos : Nat) :
    ((readChunk : Rd FloretSubwordVocab) d pos = .err .io ↔
      (∃ e, (readChunk : Rd FloretSubwordVocab) (d ++ e) pos ≠ readChunk d pos) ∨ BadFloret d pos) ∧
    ((readChunk : Rd VocabWrap) d pos = .err .io ↔
      (∃ e, (readChunk : Rd VocabWrap) (d ++ e) pos ≠ readChunk d pos) ∨ BadFloret d pos) ∧
    (BadFloret d pos → ∀ e, (readChunk : Rd FloretSubwordVocab) (d ++ e) pos = .err .io ∧
      (readChunk : Rd VocabWrap) (d ++ e) pos = .err .io) := by
  have key : ∀ {α : Type} {p : Rd α}, AsksBut p BadFloret →
      (p d pos = .err .io ↔ (∃ e, p (d ++ e) pos ≠ p d pos) ∨ BadFloret d pos) := by
    intro α p h
    constructor
    · intro h'
      exact (h.asks d pos h').imp (fun ⟨e, he⟩ => ⟨e, by rw [h']; exact he⟩) id
    · rintro (⟨e, he⟩ | h')
      · exact (h.mono d e pos).resolve_right he
      · exact h.bad d pos h'
  exact ⟨key asks_floret, key asks_vocabWrap, fun h e => ⟨asks_floret.bad _ _ (h.append e), asks_vocabWrap.bad _ _ (h.append e)⟩⟩

section
variable {T V S : Type} [Toml T] [ReadChunk V] [ReadChunk S]

theorem asks_upToStorage {B : Bytes → Nat → Prop} (hv : AsksBut (readChunk : Rd V) B)
    (hs : AsksBut (readChunk : Rd S) fun _ _ => False) :
    AsksBut ((readHead : Rd (Option (Metadata T) × V)) >>= fun r => (readChunk : Rd S) >>= fun s => pure (r.1, r.2, s))
      fun d pos => ∃ m q, (readOptMetadata : Rd (Option (Metadata T))) d pos = .ok (m, q) ∧ B d q := by
  refine AsksBut.bind_plain ?_ fun r => AsksBut.bind_plain hs fun _ => (Asks.pure _).but
  unfold readHead
  exact AsksBut.bind asks_optMetadata fun m => AsksBut.bind_plain hv fun v => (Asks.pure _).but

theorem read_io_iff (d : Bytes) (pos : Nat) : (Embeddings.read d pos : Res (Embeddings T V S F32)) = .err .io ↔
    ((readHead : Rd (Option (Metadata T) × V)) >>= fun r => (readChunk : Rd S) >>= fun s => pure (r.1, r.2, s)) d pos =
      .err .io := by
  rw [read_eq]
  have : ((readHead : Rd (Option (Metadata T) × V)) >>= fun r => (readChunk : Rd S) >>= fun s => pure (r.1, r.2, s)) d pos =
      (readHead (T := T) (V := V) d pos >>= fun r => (readChunk : Rd S) d r.2 >>= fun s =>
        .ok ((r.1.1, r.1.2, s.1), s.2)) := rfl
  rw [this]
  generalize (readHead (T := T) (V := V) d pos >>= fun r => (readChunk : Rd S) d r.2 >>= fun s =>
        Res.ok ((r.1.1, r.1.2, s.1), s.2)) = x
  cases x with
  | ok r =>
    simp only [Res.ok_bind, reduceCtorEq, iff_false]
    cases readNorms d r.2 <;> simp [orNone]
  | err e => simp
  | panic => simp

theorem read_io {B : Bytes → Nat → Prop} (hv : AsksBut (readChunk : Rd V) B)
    (hs : AsksBut (readChunk : Rd S) fun _ _ => False) (d : Bytes) (pos : Nat) :
    ((Embeddings.read d pos : Res (Embeddings T V S F32)) = .err .io →
      (∃ e, (Embeddings.read (d ++ e) pos : Res (Embeddings T V S F32)) ≠ .err .io) ∨
      ∃ m q, (readOptMetadata : Rd (Option (Metadata T))) d pos = .ok (m, q) ∧ B d q) ∧
    ((∃ m q, (readOptMetadata : Rd (Option (Metadata T))) d pos = .ok (m, q) ∧ B d q) →
      (Embeddings.read d pos : Res (Embeddings T V S F32)) = .err .io) ∧
    ((Embeddings.read d pos : Res (Embeddings T V S F32)) ≠ .err .io →
      ∀ e, (Embeddings.read (d ++ e) pos : Res (Embeddings T V S F32)) ≠ .err .io) := by
  have h := asks_upToStorage (T := T) hv hs
  simp only [ne_eq, read_io_iff]
  refine ⟨h.asks d pos, h.bad d pos, fun h' e => ?_⟩
  rw [(h.mono d e pos).resolve_left h']
  exact h'

end

/-- C88, whole files with a vocabulary and a matrix of any kind. An I/O error means that the data ends too early – there is a
continuation for which there is no I/O error – or that there is a floret vocabulary with a wrong number of hash functions; in
the second case no continuation helps. If there is no I/O error, then there is none however the data continues. -/
theorem c88_read_partial {T : Type} [Toml T] (d : Bytes) (pos : Nat) :
    ((Embeddings.read d pos : Res (Embeddings T VocabWrap StorageWrap F32)) = .err .io →
      (∃ e, (Embeddings.read (d ++ e) pos : Res (Embeddings T VocabWrap StorageWrap F32)) ≠ .err .io) ∨
      ∃ m q, (readOptMetadata : Rd (Option (Metadata T))) d pos = .ok (m, q) ∧ BadFloret d q) ∧
    ((∃ m q, (readOptMetadata : Rd (Option (Metadata T))) d pos = .ok (m, q) ∧ BadFloret d q) → ∀ e,
      (Embeddings.read (d ++ e) pos : Res (Embeddings T VocabWrap StorageWrap F32)) = .err .io) ∧
    ((Embeddings.read d pos : Res (Embeddings T VocabWrap StorageWrap F32)) ≠ .err .io →
      ∀ e, (Embeddings.read (d ++ e) pos : Res (Embeddings T VocabWrap StorageWrap F32)) ≠ .err .io) := by
  have h := fun d => read_io (T := T) (V := VocabWrap) (S := StorageWrap) asks_vocabWrap asks_storageWrap d pos
  refine ⟨(h d).1, ?_, (h d).2.2⟩
  rintro ⟨m, q, h1, h2⟩ e
  refine (h (d ++ e)).2.1 ⟨m, q, ?_, h2.append e⟩
  rw [← h1]
  exact (asks_optMetadata.mono d e pos).resolve_left (by rw [h1]; simp)

/-- Bytes of a complete file, except that the floret vocabulary is said to have five hash functions. -/
def fiveHashes : Bytes :=
  [0x46, 0x69, 0x46, 0x75] ++ Layout.le32 0 ++ Layout.le32 2 ++ Layout.le32 9 ++ Layout.le32 2 ++
  Layout.chunk 9 (Layout.le32 3 ++ (Layout.le32 6 ++ (Layout.le64 1 ++ (Layout.le32 5 ++ (Layout.le32 0 ++
    (Layout.string ['<'] ++ Layout.string ['>'])))))) ++
  Layout.chunk 2 (Layout.le64 1 ++ (Layout.le32 1 ++ (Layout.le32 10 ++ ([0, 0] ++ Layout.floats [0x3f800000]))))

theorem fiveHashes_bad {T : Type} [Toml T] :
    ∃ m q, (readOptMetadata : Rd (Option (Metadata T))) fiveHashes 0 = .ok (m, q) ∧ BadFloret fiveHashes q := by
  refine ⟨none, 20, by rfl, by decide +kernel, by decide +kernel, fun h h1 h4 => ?_⟩
  have : h = 1 ∨ h = 2 ∨ h = 3 ∨ h = 4 := by omega
  rcases this with rfl | rfl | rfl | rfl <;> decide +kernel

/-- C88 does not hold as stated: a complete file with a floret vocabulary of five hash functions is answered with an I/O
error, and so is every continuation of it. -/
theorem c88_false {T : Type} [Toml T] : ∃ d : Bytes, ∀ e,
    (Embeddings.read (d ++ e) 0 : Res (Embeddings T VocabWrap StorageWrap F32)) = .err .io :=
  ⟨fiveHashes, (c88_read_partial fiveHashes 0).2.1 fiveHashes_bad⟩

/-- A file cut off after its vocabulary is answered with an I/O error, and there is a continuation for which it is not. -/
example : ∃ e, (@Embeddings.read _ VocabWrap StorageWrap exampleToml _ _ (exampleFile.take 51 ++ e) 0) ≠ .err .io :=
  (((@c88_read_partial _ exampleToml (exampleFile.take 51) 0).1 (by decide +kernel)).resolve_right
    (by rintro ⟨m, q, h1, h2⟩
        have : (@readOptMetadata _ exampleToml (exampleFile.take 51) 0) = .ok (none, 20) := by decide +kernel
        rw [this] at h1
        cases h1
        exact absurd h2.1 (by decide +kernel)))

end FF
