import Verif.Model.Failing
import Verif.Lemmas.EmbeddingsIO
import Verif.Lemmas.Text
import Verif.Lemmas.ResList
import Verif.Props.FastText
import Verif.Props.Convert
import Verif.Props.Layout

/-!
# C103: failures of the stream

A failure of the underlying stream should not be mistaken for the end of the data or for data that is not there.
-/

namespace FF

open Rd

namespace Failing

/-- On a stream that fails at byte `k`, the outcome is that without failure, or an I/O error; without failure if `k` lies beyond the
end of the data. -/
def Outcome {α : Type} (k : Nat) (d : Bytes) (r r' : Res α) : Prop := r = r' ∨ r = .err .io ∧ k ≤ d.length

/-- The same for a reader, at every position. -/
def Follows {α : Type} (k : Nat) (m m' : Rd α) : Prop := ∀ d pos, Outcome k d (m d pos) (m' d pos)

variable {α β : Type} {k : Nat}

theorem Outcome.refl (d : Bytes) (r : Res α) : Outcome k d r r := .inl rfl

theorem Outcome.bind {d : Bytes} {r r' : Res α} {f f' : α → Res β} (h : Outcome k d r r')
    (hf : ∀ a, Outcome k d (f a) (f' a)) : Outcome k d (r >>= f) (r' >>= f') := by
  rcases h with rfl | ⟨rfl, hk⟩
  · cases r with
    | ok a => exact hf a
    | err e => exact .inl rfl
    | panic => exact .inl rfl
  · exact .inr ⟨rfl, hk⟩

namespace Follows

theorem refl (m : Rd α) : Follows k m m := fun d _ => .refl d _
theorem pure (a : α) : Follows k (pure a) (pure a) := refl _

theorem bind {m m' : Rd α} {f f' : α → Rd β} (h : Follows k m m') (hf : ∀ a, Follows k (f a) (f' a)) :
    Follows k (m >>= f) (m' >>= f') := fun d pos =>
  Outcome.bind (h d pos) fun r => hf r.1 d r.2

theorem replicateM {m m' : Rd α} (h : Follows k m m') (n : Nat) : Follows k (replicateM n m) (replicateM n m') := by
  induction n with
  | zero => exact pure _
  | succ n ih => exact h.bind fun _ => ih.bind fun _ => pure _

theorem ite {c : Prop} [Decidable c] {m n m' n' : Rd α} (h1 : Follows k m m') (h2 : Follows k n n') :
    Follows k (if c then m else n) (if c then m' else n') := by
  by_cases h : c
  · rwa [if_pos h, if_pos h]
  · rwa [if_neg h, if_neg h]

/-- A reader whose outcome does not change when data is appended, unless it is an I/O error. -/
theorem exact {m : Rd α} (h : Mono m) : Follows k (exact k m) m := by
  intro d pos
  by_cases hk : k ≤ d.length
  · have := h.mono (d.take k) (d.drop k) pos
    rw [List.take_append_drop] at this
    rcases this with h | h
    · exact .inr ⟨h, hk⟩
    · exact .inl h.symm
  · left
    unfold Failing.exact
    rw [List.take_of_length_le (by omega)]

theorem readUntil (delim : UInt8) : Follows k (readUntil k delim) (FF.readUntil delim) := by
  intro d pos
  unfold Failing.readUntil FF.readUntil
  dsimp only
  by_cases h : ((takeThrough delim (d.drop pos)).getLast? = some delim ∧
      pos + (takeThrough delim (d.drop pos)).length ≤ k) ∨ d.length < k
  · rw [if_pos h]; exact .inl rfl
  · rw [if_neg h]; exact .inr ⟨rfl, by omega⟩

theorem readToken (delim : UInt8) (lossy : Bool) : Follows k (readToken k delim lossy) (FF.readToken delim lossy) :=
  (readUntil delim).bind fun _ => refl _

theorem readNumber (delim : UInt8) : Follows k (readNumber k delim) (FF.readNumber delim) :=
  (readToken delim false).bind fun _ => refl _

end Follows

section
variable {T F : Type} [Scalar F]

omit [Scalar F] in
theorem follows_word2vecRaw [FloatBits F] (lossy : Bool) :
    Follows k (readWord2vecRaw k lossy : Rd (Embeddings T SimpleVocab (NdArray F) F)) (Embeddings.readWord2vecRaw lossy) := by
  refine (Follows.readNumber _).bind fun n => (Follows.readNumber _).bind fun e => (Follows.refl _).bind fun _ =>
    (Follows.refl _).bind fun _ => (Follows.replicateM ?_ n).bind fun _ => Follows.refl _
  exact (Follows.readToken _ _).bind fun _ => (Follows.exact (Mono.readF32s _)).bind fun _ => Follows.refl _

theorem mono_ftConfig : Mono readFtConfig := by
  have h1 : Mono readLoss := by unfold readLoss; mono_tac
  have h2 : Mono readModel := by unfold readModel; mono_tac
  unfold readFtConfig
  mono_tac

theorem follows_fastText [ScalarNat F] [FloatBits F] [ConfigToml T] (lossy : Bool) :
    Follows k (readFastText k lossy : Rd (Embeddings T FastTextSubwordVocab (NdArray F) F)) (Embeddings.readFastText lossy) := by
  have hw : Follows k (readFtWord k lossy) (FF.readFtWord lossy) :=
    (Follows.readToken _ _).bind fun _ => (Follows.exact Mono.readU64).bind fun _ =>
      (Follows.exact (Mono.readExact _)).bind fun _ => Follows.refl _
  have hv : ∀ c, Follows k (readFtVocab k c lossy) (FF.readFtVocab c lossy) := fun c =>
    (Follows.exact (by unfold readFtVocabHead; mono_tac)).bind fun _ => (Follows.refl _).bind fun _ =>
      (hw.replicateM _).bind fun _ => Follows.refl _
  refine (Follows.exact (by unfold Embeddings.readFtMagic; mono_tac)).bind fun _ => (Follows.exact mono_ftConfig).bind fun c =>
    (hv c).bind fun _ => (Follows.exact (by unfold Embeddings.readFtQuantized; mono_tac)).bind fun _ =>
    (Follows.exact ?_).bind fun _ => Follows.refl _
  unfold readFtMatrix
  have := allocArray_mono 4
  repeat' (first | apply this | mono_tac)

/-- The loop over lines. -/
theorem eachLine_outcome (f : Bytes → Res α) (d : Bytes) :
    ∀ fuel pos, Outcome k d (eachLine k f d fuel pos) ((rawLines fuel (d.drop pos)).mapM f) := by
  intro fuel
  induction fuel with
  | zero => intro pos; exact .inl rfl
  | succ fuel ih =>
    intro pos
    unfold eachLine rawLines
    rcases Follows.readUntil (k := k) 10 d pos with h | ⟨h, hk⟩
    · rw [h]
      unfold FF.readUntil
      dsimp only
      rw [Res.ok_bind]
      cases ht : takeThrough 10 (d.drop pos) with
      | nil => exact .inl rfl
      | cons b l =>
        dsimp only
        rw [List.mapM_cons, List.drop_drop]
        exact Outcome.bind (.refl d _) fun a => Outcome.bind (ih _) fun _ => .refl d _
    · rw [h]
      exact .inr ⟨rfl, hk⟩

/-- If the stream fails, the loop does not end otherwise than with an error. -/
theorem eachLine_ne_ok (f : Bytes → Res α) (d : Bytes) (hk : k ≤ d.length) :
    ∀ fuel pos, d.length - pos < fuel → ∀ as, eachLine k f d fuel pos ≠ .ok as := by
  intro fuel
  induction fuel with
  | zero => intro pos h; omega
  | succ fuel ih =>
    intro pos h as hok
    unfold eachLine at hok
    obtain ⟨⟨l, p⟩, h1, h2⟩ := Res.bind_eq_ok.mp hok
    unfold readUntil at h1
    dsimp only at h1
    split at h1
    · next hc =>
      cases h1
      rcases hc with ⟨hc1, hc2⟩ | hc
      · cases ht : takeThrough 10 (d.drop pos) with
        | nil => rw [ht] at hc1; cases hc1
        | cons b l =>
          rw [ht] at h2 hc2
          dsimp only at h2
          obtain ⟨a, _, h3⟩ := Res.bind_eq_ok.mp h2
          obtain ⟨as', h4, _⟩ := Res.bind_eq_ok.mp h3
          refine ih _ ?_ as' h4
          simp only [List.length_cons] at hc2 ⊢
          omega
      · omega
    · cases h1

/-! ## What is read lies before the failure -/

/-- A reader that does not go beyond the end of the data. -/
def Inside {α : Type} (m : Rd α) : Prop := ∀ d pos a q, pos ≤ d.length → m d pos = .ok (a, q) → q ≤ d.length

/-- A reader that does not go beyond the failure. -/
def Within {α : Type} (k : Nat) (m : Rd α) : Prop :=
  ∀ d pos a q, k ≤ d.length → pos ≤ k → m d pos = .ok (a, q) → q ≤ k

namespace Inside

theorem lift (r : Res α) : Inside (lift r) := fun _ _ _ _ hp h => (Rd.lift_ok.mp h).2 ▸ hp
theorem pure (a : α) : Inside (pure a : Rd α) := lift (.ok a)
theorem fail (e : Err) : Inside (fail e : Rd α) := lift (.err e)

theorem bind {m : Rd α} {f : α → Rd β} (h : Inside m) (hf : ∀ a, Inside (f a)) : Inside (m >>= f) := by
  intro d pos b q hp hok
  obtain ⟨a, p, h1, h2⟩ := Rd.bind_ok.mp hok
  exact hf a d p b q (h d pos a p hp h1) h2

theorem readExact (n : Nat) : Inside (readExact n) := by
  intro d pos a q hp h
  unfold Rd.readExact at h
  split at h
  · cases h; exact hp
  · split at h
    · cases h; assumption
    · cases h

theorem replicateM {m : Rd α} (h : Inside m) (n : Nat) : Inside (replicateM n m) := by
  induction n with
  | zero => exact pure _
  | succ n ih => exact h.bind fun _ => ih.bind fun _ => pure _

theorem ite {c : Prop} [Decidable c] {m n : Rd α} (h1 : Inside m) (h2 : Inside n) : Inside (if c then m else n) := by
  by_cases h : c
  · rwa [if_pos h]
  · rwa [if_neg h]

end Inside

theorem inside_u32 : Inside readU32 := (Inside.readExact _).bind fun _ => Inside.pure _
theorem inside_u64 : Inside readU64 := (Inside.readExact _).bind fun _ => Inside.pure _
theorem inside_f32s (n : Nat) : Inside (readF32s n) := (Inside.readExact _).bind fun _ => Inside.pure _
theorem inside_allocArray (size : Nat) (dims : List Nat) : Inside (allocArray size dims) := Inside.lift _

/-- Closure under the constructions used by readers. -/
macro "inside_tac" : tactic => `(tactic| repeat' with_reducible (first
  | exact inside_u32
  | exact inside_u64
  | exact inside_f32s _
  | exact inside_allocArray _ _
  | exact Inside.readExact _
  | exact Inside.pure _
  | exact Inside.lift _
  | exact Inside.fail _
  | refine Inside.bind ?_ (fun _ => ?_)
  | refine Inside.ite ?_ ?_
  | refine Inside.replicateM ?_ _))

namespace Within

theorem lift (r : Res α) : Within k (lift r) := fun _ _ _ _ _ hp h => (Rd.lift_ok.mp h).2 ▸ hp
theorem pure (a : α) : Within k (pure a : Rd α) := lift (.ok a)
theorem fail (e : Err) : Within k (fail e : Rd α) := lift (.err e)

theorem bind {m : Rd α} {f : α → Rd β} (h : Within k m) (hf : ∀ a, Within k (f a)) : Within k (m >>= f) := by
  intro d pos b q hk hp hok
  obtain ⟨a, p, h1, h2⟩ := Rd.bind_ok.mp hok
  exact hf a d p b q hk (h d pos a p hk hp h1) h2

theorem replicateM {m : Rd α} (h : Within k m) (n : Nat) : Within k (replicateM n m) := by
  induction n with
  | zero => exact pure _
  | succ n ih => exact h.bind fun _ => ih.bind fun _ => pure _

theorem ite {c : Prop} [Decidable c] {m n : Rd α} (h1 : Within k m) (h2 : Within k n) : Within k (if c then m else n) := by
  by_cases h : c
  · rwa [if_pos h]
  · rwa [if_neg h]

theorem exact {m : Rd α} (h : Inside m) : Within k (exact k m) := by
  intro d pos a q hk hp hok
  have hl : (d.take k).length = k := by rw [List.length_take]; omega
  have := h (d.take k) pos a q (by omega) hok
  omega

theorem readUntil (delim : UInt8) : Within k (readUntil k delim) := by
  intro d pos a q hk _ h
  unfold Failing.readUntil at h
  dsimp only at h
  split at h
  · cases h; omega
  · cases h

theorem readToken (delim : UInt8) (lossy : Bool) : Within k (readToken k delim lossy) :=
  (readUntil delim).bind fun _ => lift _

theorem readNumber (delim : UInt8) : Within k (readNumber k delim) :=
  (readToken delim false).bind fun _ => lift _

end Within

omit [Scalar F] in
theorem within_word2vecRaw [FloatBits F] (lossy : Bool) :
    Within k (readWord2vecRaw k lossy : Rd (Embeddings T SimpleVocab (NdArray F) F)) := by
  refine (Within.readNumber _).bind fun n => (Within.readNumber _).bind fun e => (Within.lift _).bind fun _ =>
    (Within.lift _).bind fun _ => (Within.replicateM ?_ n).bind fun _ => (Within.lift _).bind fun _ => Within.lift _
  exact (Within.readToken _ _).bind fun _ => (Within.exact (inside_f32s _)).bind fun _ => Within.pure _

theorem within_fastText [ScalarNat F] [FloatBits F] [ConfigToml T] (lossy : Bool) :
    Within k (readFastText k lossy : Rd (Embeddings T FastTextSubwordVocab (NdArray F) F)) := by
  have hw : Within k (readFtWord k lossy) :=
    (Within.readToken _ _).bind fun _ => (Within.exact inside_u64).bind fun _ =>
      (Within.exact (Inside.readExact _)).bind fun _ => Within.ite (Within.fail _) (Within.pure _)
  have hv : ∀ c, Within k (readFtVocab k c lossy) := fun c =>
    (Within.exact (by
      unfold readFtVocabHead
      inside_tac)).bind fun _ => (Within.lift _).bind fun _ =>
      (hw.replicateM _).bind fun _ => (Within.lift _).bind fun _ => Within.lift _
  have hc : Inside readFtConfig := by
    have h1 : Inside readLoss := by unfold readLoss; inside_tac
    have h2 : Inside readModel := by unfold readModel; inside_tac
    unfold readFtConfig
    refine inside_u32.bind fun _ => inside_u32.bind fun _ => inside_u32.bind fun _ => inside_u32.bind fun _ =>
      inside_u32.bind fun _ => inside_u32.bind fun _ => h1.bind fun _ => h2.bind fun _ => ?_
    inside_tac
  refine (Within.exact ?_).bind fun _ => (Within.exact hc).bind fun c =>
    (hv c).bind fun _ => (Within.exact ?_).bind fun _ => (Within.exact ?_).bind fun _ => Within.lift _
  · unfold Embeddings.readFtMagic
    inside_tac
  · unfold Embeddings.readFtQuantized
    inside_tac
  · unfold readFtMatrix
    inside_tac

/-! ## The formats of other programs -/

/-- What follows from the two properties: the outcome is that without failure or an I/O error, and an I/O error if the failure comes
before the end of what would have been read. -/
theorem Follows.reported {m m' : Rd α} (h : Follows k m m') (hw : Within k m) (d : Bytes) (pos : Nat) :
    (m d pos = m' d pos ∨ m d pos = .err .io) ∧ (d.length < k → m d pos = m' d pos) ∧
    ∀ a q, m' d pos = .ok (a, q) → pos ≤ k → k < q → k ≤ d.length → m d pos = .err .io := by
  refine ⟨(h d pos).imp id And.left, fun hk => ?_, fun a q h' hp hq hk => ?_⟩
  · rcases h d pos with h | ⟨_, h⟩
    · exact h
    · omega
  · rcases h d pos with h1 | ⟨h1, _⟩
    · have := hw d pos a q hk hp (h1.trans h')
      omega
    · exact h1

omit [Scalar F] in
/-- **C103** (word2vec). The outcome of reading from a stream that fails at byte `k` is the outcome without failure or an I/O error;
it is the former if the data ends before byte `k`, and the latter if more than `k` bytes would have been read. -/
theorem c103_word2vec_raw [FloatBits F] (k : Nat) (lossy : Bool) (d : Bytes) (pos : Nat) :
    let r : Res (Embeddings T SimpleVocab (NdArray F) F × Nat) := readWord2vecRaw k lossy d pos
    let r' : Res (Embeddings T SimpleVocab (NdArray F) F × Nat) := Embeddings.readWord2vecRaw lossy d pos
    (r = r' ∨ r = .err .io) ∧ (d.length < k → r = r') ∧
    ∀ a q, r' = .ok (a, q) → pos ≤ k → k < q → k ≤ d.length → r = .err .io :=
  (follows_word2vecRaw lossy).reported (within_word2vecRaw lossy) d pos

/-- **C103** (word2vec, with normalisation). -/
theorem c103_word2vec [FloatBits F] (k : Nat) (lossy : Bool) (d : Bytes) (pos : Nat) :
    let r : Res (Embeddings T SimpleVocab (NdArray F) F × Nat) := readWord2vec k lossy d pos
    let r' : Res (Embeddings T SimpleVocab (NdArray F) F × Nat) := Embeddings.readWord2vec lossy d pos
    (r = r' ∨ r = .err .io) ∧ (d.length < k → r = r') ∧
    ∀ a q, r' = .ok (a, q) → pos ≤ k → k < q → k ≤ d.length → r = .err .io :=
  Follows.reported ((follows_word2vecRaw lossy).bind fun _ => .refl _)
    ((within_word2vecRaw lossy).bind fun _ => .lift _) d pos

/-- **C103** (fastText). -/
theorem c103_fasttext [ScalarNat F] [FloatBits F] [ConfigToml T] (k : Nat) (lossy : Bool) (d : Bytes) (pos : Nat) :
    let r : Res (Embeddings T FastTextSubwordVocab (NdArray F) F × Nat) := readFastText k lossy d pos
    let r' : Res (Embeddings T FastTextSubwordVocab (NdArray F) F × Nat) := Embeddings.readFastText lossy d pos
    (r = r' ∨ r = .err .io) ∧ (d.length < k → r = r') ∧
    ∀ a q, r' = .ok (a, q) → pos ≤ k → k < q → k ≤ d.length → r = .err .io :=
  (follows_fastText lossy).reported (within_fastText lossy) d pos

theorem mapM_map (g : α → Bytes) (f : Bytes → Res β) (l : List α) : (l.map g).mapM f = l.mapM fun x => f (g x) := by
  induction l with
  | nil => rfl
  | cons a l ih => simp only [List.map_cons, List.mapM_cons, ih]

omit [Scalar F] in
theorem readEmbeds_outcome [FloatText F] (shape : Option (Nat × Nat)) (lossy : Bool) (d : Bytes) (pos : Nat) :
    Outcome k d (readEmbeds k shape lossy d pos : Res (Embeddings T SimpleVocab (NdArray F) F))
      (Embeddings.readEmbeds shape lossy d pos) := by
  refine Outcome.bind (.refl d _) fun _ => Outcome.bind ?_ fun _ => .refl d _
  unfold textLines
  rw [mapM_map, List.length_drop]
  exact eachLine_outcome _ d _ _

omit [Scalar F] in
theorem readEmbeds_ne_ok [FloatText F] (shape : Option (Nat × Nat)) (lossy : Bool) (d : Bytes) (pos : Nat)
    (hk : k ≤ d.length) (e : Embeddings T SimpleVocab (NdArray F) F) : readEmbeds k shape lossy d pos ≠ .ok e := by
  intro h
  obtain ⟨_, _, h⟩ := Res.bind_eq_ok.mp h
  obtain ⟨rows, h1, _⟩ := Res.bind_eq_ok.mp h
  exact eachLine_ne_ok _ d hk _ _ (by omega) rows h1

theorem Outcome.reported {d : Bytes} {r r' : Res α} (h : Outcome k d r r') (hn : k ≤ d.length → ∀ a, r ≠ .ok a) :
    (r = r' ∨ r = .err .io) ∧ (d.length < k → r = r') ∧ ∀ a, r' = .ok a → k ≤ d.length → r = .err .io := by
  refine ⟨h.imp id And.left, fun hk => ?_, fun a h' hk => ?_⟩
  · rcases h with h | ⟨_, h⟩
    · exact h
    · omega
  · rcases h with h | h
    · exact absurd (h.trans h') (hn hk a)
    · exact h.1

omit [Scalar F] in
/-- **C103** (text without dimensions, `shape = none`, and the part of a text behind the first line). The outcome on a stream that
fails is the outcome without failure or an I/O error. Data that would have been accepted is refused with an I/O error whenever
the stream fails, even behind the last byte. -/
theorem c103_text_raw [FloatText F] (k : Nat) (shape : Option (Nat × Nat)) (lossy : Bool) (d : Bytes) (pos : Nat) :
    let r : Res (Embeddings T SimpleVocab (NdArray F) F) := readEmbeds k shape lossy d pos
    let r' : Res (Embeddings T SimpleVocab (NdArray F) F) := Embeddings.readEmbeds shape lossy d pos
    (r = r' ∨ r = .err .io) ∧ (d.length < k → r = r') ∧ ∀ e, r' = .ok e → k ≤ d.length → r = .err .io :=
  (readEmbeds_outcome shape lossy d pos).reported (readEmbeds_ne_ok shape lossy d pos)

/-- **C103** (text without dimensions, with normalisation). -/
theorem c103_text [FloatText F] (k : Nat) (lossy : Bool) (d : Bytes) (pos : Nat) :
    let r : Res (Embeddings T SimpleVocab (NdArray F) F) := readText k lossy d pos
    let r' : Res (Embeddings T SimpleVocab (NdArray F) F) := Embeddings.readText lossy d pos
    (r = r' ∨ r = .err .io) ∧ (d.length < k → r = r') ∧ ∀ e, r' = .ok e → k ≤ d.length → r = .err .io := by
  refine Outcome.reported (Outcome.bind (readEmbeds_outcome none lossy d pos) fun _ => .refl d _) fun hk e h => ?_
  obtain ⟨e', h1, _⟩ := Res.bind_eq_ok.mp h
  exact readEmbeds_ne_ok none lossy d pos hk e' h1

omit [Scalar F] in
theorem readTextDimsRaw_outcome [FloatText F] (lossy : Bool) (d : Bytes) (pos : Nat) :
    Outcome k d (readTextDimsRaw k lossy d pos : Res (Embeddings T SimpleVocab (NdArray F) F))
      (Embeddings.readTextDimsRaw lossy d pos) :=
  Outcome.bind (Follows.readNumber 32 d pos) fun _ => Outcome.bind (Follows.readNumber 10 d _) fun _ =>
    readEmbeds_outcome _ lossy d _

omit [Scalar F] in
theorem readTextDimsRaw_ne_ok [FloatText F] (lossy : Bool) (d : Bytes) (pos : Nat)
    (hk : k ≤ d.length) (e : Embeddings T SimpleVocab (NdArray F) F) : readTextDimsRaw k lossy d pos ≠ .ok e := by
  intro h
  obtain ⟨_, _, h⟩ := Res.bind_eq_ok.mp h
  obtain ⟨_, _, h⟩ := Res.bind_eq_ok.mp h
  exact readEmbeds_ne_ok _ lossy d _ hk e h

omit [Scalar F] in
/-- **C103** (text with dimensions). -/
theorem c103_text_dims_raw [FloatText F] (k : Nat) (lossy : Bool) (d : Bytes) (pos : Nat) :
    let r : Res (Embeddings T SimpleVocab (NdArray F) F) := readTextDimsRaw k lossy d pos
    let r' : Res (Embeddings T SimpleVocab (NdArray F) F) := Embeddings.readTextDimsRaw lossy d pos
    (r = r' ∨ r = .err .io) ∧ (d.length < k → r = r') ∧ ∀ e, r' = .ok e → k ≤ d.length → r = .err .io :=
  (readTextDimsRaw_outcome lossy d pos).reported (readTextDimsRaw_ne_ok lossy d pos)

/-- **C103** (text with dimensions, with normalisation). -/
theorem c103_text_dims [FloatText F] (k : Nat) (lossy : Bool) (d : Bytes) (pos : Nat) :
    let r : Res (Embeddings T SimpleVocab (NdArray F) F) := readTextDims k lossy d pos
    let r' : Res (Embeddings T SimpleVocab (NdArray F) F) := Embeddings.readTextDims lossy d pos
    (r = r' ∨ r = .err .io) ∧ (d.length < k → r = r') ∧ ∀ e, r' = .ok e → k ≤ d.length → r = .err .io := by
  refine Outcome.reported (Outcome.bind (readTextDimsRaw_outcome lossy d pos) fun _ => .refl d _) fun hk e h => ?_
  obtain ⟨e', h1, _⟩ := Res.bind_eq_ok.mp h
  exact readTextDimsRaw_ne_ok lossy d pos hk e' h1

omit [Scalar F] in
/-- **C103** (floret). -/
theorem c103_floret [FloatText F] (k : Nat) (d : Bytes) (pos : Nat) :
    let r : Res (Embeddings T FloretSubwordVocab (NdArray F) F) := readFloret k d pos
    let r' : Res (Embeddings T FloretSubwordVocab (NdArray F) F) := Embeddings.readFloret d pos
    (r = r' ∨ r = .err .io) ∧ (d.length < k → r = r') ∧ ∀ e, r' = .ok e → k ≤ d.length → r = .err .io := by
  refine Outcome.reported ?_ fun hk e h => ?_
  · have hh : Follows k (readFloretHead k) FF.readFloretHead := by
      unfold readFloretHead FF.readFloretHead
      exact (Follows.readNumber _).bind fun _ => (Follows.readNumber _).bind fun _ => (Follows.readNumber _).bind fun _ =>
        (Follows.readNumber _).bind fun _ => (Follows.readNumber _).bind fun _ => (Follows.readNumber _).bind fun _ =>
        (Follows.readToken _ _).bind fun _ => (Follows.readToken _ _).bind fun _ => .refl _
    refine Outcome.bind (hh d pos) fun p => Outcome.bind (.refl d _) fun _ => Outcome.bind (.refl d _) fun _ =>
      Outcome.bind ?_ fun _ => .refl d _
    unfold bufLines
    rw [mapM_map, List.length_drop]
    exact eachLine_outcome _ d _ _
  · obtain ⟨_, _, h⟩ := Res.bind_eq_ok.mp h
    obtain ⟨_, _, h⟩ := Res.bind_eq_ok.mp h
    obtain ⟨_, _, h⟩ := Res.bind_eq_ok.mp h
    obtain ⟨rows, h1, _⟩ := Res.bind_eq_ok.mp h
    exact eachLine_ne_ok _ d hk _ _ (by omega) rows h1

end

/-! ## Finalfusion -/

/-- **C103** (chunks). Every chunk is read as without failure, or there is an I/O error. -/
theorem c103_chunks {T V S : Type} [Toml T] [WriteChunk V] [ReadChunk V] [VocabChunk V] [WriteChunk S] [ReadChunk S]
    [StorageChunk S] (k : Nat) :
    Follows k (exact k (readChunk : Rd Header)) readChunk ∧ Follows k (exact k (readChunk : Rd (Metadata T))) readChunk ∧
    Follows k (exact k (readChunk : Rd V)) readChunk ∧ Follows k (exact k (readChunk : Rd S)) readChunk ∧
    Follows k (exact k (readChunk : Rd (NdNorms F32))) readChunk :=
  ⟨.exact Header.read_mono, .exact readMetadata_mono, .exact VocabChunk.mono, .exact StorageChunk.mono, .exact readNorms_mono⟩

/-- **C103** (finalfusion). The outcome on a stream that fails is an I/O error, or the outcome without failure, or embeddings
without norms where there would have been embeddings that agree in everything else (or a panic, when the memory for the norms is
requested). -/
theorem c103_finalfusion_partial {T V S : Type} [Toml T] [WriteChunk V] [ReadChunk V] [VocabChunk V] [WriteChunk S]
    [ReadChunk S] [StorageChunk S] (k : Nat) (d : Bytes) (pos : Nat) :
    let r : Res (Embeddings T V S F32) := readEmbeddings k d pos
    let r' : Res (Embeddings T V S F32) := Embeddings.read d pos
    (d.length < k → r = r') ∧
    (r = r' ∨ r = .err .io ∨ ∃ e, r = .ok e ∧ e.norms = none ∧ (r' = .panic ∨ ∃ n, r' = .ok { e with norms := n })) := by
  intro r r'
  refine ⟨fun hk => ?_, ?_⟩
  · show Embeddings.read (d.take k) pos = _
    rw [List.take_of_length_le (by omega)]
  have hm : Mono (Embeddings.readHead (T := T) (V := V)) := by
    refine Mono.bind ?_ fun _ => VocabChunk.mono.bind fun _ => Mono.pure _
    unfold readOptMetadata
    refine Mono.bind Header.read_mono fun h => ?_
    have := readMetadata_mono (T := T)
    split
    · exact Mono.fail _
    · split
      · exact this.bind fun _ => Mono.pure _
      · exact Mono.pure _
  have hr : r = (exact k (Embeddings.readHead (T := T) (V := V)) d pos >>= fun x =>
      exact k (readChunk : Rd S) d x.2 >>= fun y =>
      Embeddings.orNone (exact k (readChunk : Rd (NdNorms F32)) d y.2) >>= fun n =>
      .ok ⟨x.1.1, y.1, x.1.2, n.map (·.1)⟩) := rfl
  have hr' : r' = (Embeddings.readHead (T := T) (V := V) d pos >>= fun x =>
      (readChunk : Rd S) d x.2 >>= fun y =>
      Embeddings.orNone ((readChunk : Rd (NdNorms F32)) d y.2) >>= fun n =>
      .ok ⟨x.1.1, y.1, x.1.2, n.map (·.1)⟩) := rfl
  rcases Follows.exact (k := k) hm d pos with h1 | ⟨h1, _⟩
  rotate_left
  · rw [h1] at hr
    exact .inr (.inl hr)
  rw [h1] at hr
  cases hx : Embeddings.readHead (T := T) (V := V) d pos with
  | err x => rw [hx] at hr hr'; exact .inl (hr.trans hr'.symm)
  | panic => rw [hx] at hr hr'; exact .inl (hr.trans hr'.symm)
  | ok x =>
    rw [hx, Res.ok_bind] at hr hr'
    rcases Follows.exact (k := k) (StorageChunk.mono (S := S)) d x.2 with h2 | ⟨h2, _⟩
    rotate_left
    · rw [h2] at hr
      exact .inr (.inl hr)
    rw [h2] at hr
    cases hy : (readChunk : Rd S) d x.2 with
    | err x => rw [hy] at hr hr'; exact .inl (hr.trans hr'.symm)
    | panic => rw [hy] at hr hr'; exact .inl (hr.trans hr'.symm)
    | ok y =>
      rw [hy, Res.ok_bind] at hr hr'
      rcases Follows.exact (k := k) readNorms_mono d y.2 with h3 | ⟨h3, _⟩
      · have h3' : exact k (readChunk : Rd (NdNorms F32)) d y.2 = readChunk d y.2 := h3
        rw [h3'] at hr
        exact .inl (hr.trans hr'.symm)
      · have h3' : exact k (readChunk : Rd (NdNorms F32)) d y.2 = .err .io := h3
        rw [h3'] at hr
        refine .inr (.inr ⟨_, hr, rfl, ?_⟩)
        cases hz : (readChunk : Rd (NdNorms F32)) d y.2 with
        | panic => rw [hz] at hr'; exact .inl hr'
        | ok n => rw [hz] at hr'; exact .inr ⟨_, hr'⟩
        | err e => rw [hz] at hr'; exact .inr ⟨_, hr'⟩

open Layout in
/-- A file with one word, one component, and one norm. -/
def exampleNormsFile : Bytes := [0x46, 0x69, 0x46, 0x75] ++ (le32 0 ++ (le32 3 ++ (le32 1 ++ le32 2 ++ le32 6))) ++
  (le32 1 ++ (le64 13 ++ (le64 1 ++ string ['a']))) ++
  (le32 2 ++ le64 23 ++ le64 1 ++ le32 1 ++ le32 10 ++ [0, 0, 0] ++ floats [0x3f800000]) ++
  (le32 6 ++ le64 20 ++ le64 1 ++ le32 10 ++ [0, 0, 0, 0] ++ floats [0x40000000])


/-- **C103** is false as stated: a file with norms, read from a stream that fails within the norms, gives embeddings without
norms. -/
theorem c103_false : ∃ (k : Nat) (d : Bytes) (e e' : Embeddings Str SimpleVocab (NdArray F32) F32), k < d.length ∧
    @Embeddings.read _ _ _ exampleToml _ _ d 0 = .ok e ∧ @readEmbeddings _ _ _ exampleToml _ _ k d 0 = .ok e' ∧
    e.norms ≠ none ∧ e'.norms = none := by
  have h : (@Embeddings.read _ SimpleVocab (NdArray F32) exampleToml _ _ exampleNormsFile 0).map (·.norms.isSome) = .ok true ∧
      (@readEmbeddings _ SimpleVocab (NdArray F32) exampleToml _ _ 108 exampleNormsFile 0).map (·.norms.isSome) = .ok false := by
    decide +kernel
  obtain ⟨e, h1, h2⟩ := Res.map_eq_ok.mp h.1
  obtain ⟨e', h3, h4⟩ := Res.map_eq_ok.mp h.2
  refine ⟨108, exampleNormsFile, e, e', by decide +kernel, h1, h3, ?_, ?_⟩
  · intro h; rw [h] at h2; cases h2
  · exact Option.not_isSome_iff_eq_none.mp (by rw [h4]; decide)

/-! ## Examples -/

section
attribute [local instance] exampleScalar exampleFloatText exampleScalarNat exampleConfigToml

/-- The two lines of a text, cut off behind the first, give one word. If the stream fails there (or behind the last byte), there is
an I/O error, as `c103_text_raw` and `c103_text_dims_raw` say; if it fails later than that, there are two words. -/
example :
    (Embeddings.readTextRaw false ((ascii "a 1 2\nb 3 4\n").take 6) 0 : Res (Embeddings Str SimpleVocab (NdArray F32) F32)).map
      (·.vocab.words) = .ok [['a']] ∧
    (∀ k ∈ [0, 3, 6, 8, 12], (readEmbeds k none false (ascii "a 1 2\nb 3 4\n") 0 :
      Res (Embeddings Str SimpleVocab (NdArray F32) F32)).map (·.vocab.words) = .err .io) ∧
    (readEmbeds 13 none false (ascii "a 1 2\nb 3 4\n") 0 : Res (Embeddings Str SimpleVocab (NdArray F32) F32)).map
      (·.vocab.words) = .ok [['a'], ['b']] ∧
    (∀ k ∈ [0, 2, 6, 10, 16], (readTextDimsRaw k false (ascii "2 2\na 1 2\nb 3 4\n") 0 :
      Res (Embeddings Str SimpleVocab (NdArray F32) F32)).map (·.vocab.words) = .err .io) ∧
    (readTextDimsRaw 17 false (ascii "2 2\na 1 2\nb 3 4\n") 0 : Res (Embeddings Str SimpleVocab (NdArray F32) F32)).map
      (·.vocab.words) = .ok [['a'], ['b']] := by
  decide +kernel

/-- The same for floret. -/
example :
    (∀ k ∈ [0, 5, 16, 22, 28], (readFloret k (ascii "2 2 3 6 3 7 [ ]\n0 1 2\n1 3 4\n") 0 :
      Res (Embeddings Str FloretSubwordVocab (NdArray F32) F32)).map (·.storage.inner.rows) = .err .io) ∧
    (readFloret 29 (ascii "2 2 3 6 3 7 [ ]\n0 1 2\n1 3 4\n") 0 :
      Res (Embeddings Str FloretSubwordVocab (NdArray F32) F32)).map (·.storage.inner.rows) = .ok [[1, 2], [3, 4]] := by
  decide +kernel

/-- The last hypotheses of `c103_word2vec_raw`: 17 bytes are read. If the stream fails before byte 17, there is an I/O error; if it
fails at byte 17, the failure is not met. -/
example :
    (∀ k ∈ [0, 3, 9, 13, 16], (readWord2vecRaw k false (ascii "2 1\na " ++ [1, 0, 0, 0, 10] ++ ascii "b " ++ [2, 0, 0, 0, 10]) 0 :
      Res (Embeddings Str SimpleVocab (NdArray F32) F32 × Nat)).map (fun r => (r.1.vocab.words, r.2)) = .err .io) ∧
    (readWord2vecRaw 17 false (ascii "2 1\na " ++ [1, 0, 0, 0, 10] ++ ascii "b " ++ [2, 0, 0, 0, 10]) 0 :
      Res (Embeddings Str SimpleVocab (NdArray F32) F32 × Nat)).map (fun r => (r.1.vocab.words, r.2)) =
        .ok ([['a'], ['b']], 17) := by
  decide +kernel

/-- The last hypotheses of `c103_fasttext`: the whole example is read, and the failure before its last byte is reported. -/
example :
    (Embeddings.readFastText false exampleFtFile.bytes 0 : Res (Embeddings FtConfig FastTextSubwordVocab (NdArray F32) F32 × Nat)).map
      (·.2) = .ok exampleFtFile.bytes.length ∧
    (readFastText (exampleFtFile.bytes.length - 1) false exampleFtFile.bytes 0 :
      Res (Embeddings FtConfig FastTextSubwordVocab (NdArray F32) F32 × Nat)).map (·.2) = .err .io := by
  decide +kernel

/-- The three cases of `c103_finalfusion_partial`: failures within the vocabulary, within the norms, and behind the data. -/
example :
    (@readEmbeddings _ SimpleVocab (NdArray F32) exampleToml _ _ 40 exampleNormsFile 0).map (·.norms) = .err .io ∧
    (@readEmbeddings _ SimpleVocab (NdArray F32) exampleToml _ _ 90 exampleNormsFile 0).map (·.norms.isSome) = .ok false ∧
    (@readEmbeddings _ SimpleVocab (NdArray F32) exampleToml _ _ 117 exampleNormsFile 0).map (·.norms.isSome) = .ok true := by
  decide +kernel

end

end Failing

end FF
