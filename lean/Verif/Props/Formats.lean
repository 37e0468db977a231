import Verif.Props.Truncated
import Verif.Props.Layout
import Verif.Props.FastText
import Verif.Props.Floret
import Verif.Props.Written
import Verif.Props.TextExact
import Verif.Model.Decimal

/-!
# C125: files of one format given to the readers of another
-/

namespace FF

open Rd Embeddings

/-- The outcome is an error: neither a value nor a panic. -/
def Refused {α : Type} (r : Res α) : Prop := ∃ x, r = .err x

theorem Refused.bind {α β : Type} {r : Res α} {f : α → Res β} (h : Refused r) : Refused (r >>= f) := by
  obtain ⟨x, rfl⟩ := h
  exact ⟨x, rfl⟩

theorem Refused.rbind {α β : Type} {r : Rd α} {f : α → Rd β} {d : Bytes} {pos : Nat} (h : Refused (r d pos)) :
    Refused ((r >>= f) d pos) := by
  rw [bind_apply]
  exact h.bind

/-! ## Numbers -/

theorem utf8EncodeChar_small {c : Char} (h : c.toNat < 128) : ∀ b ∈ String.utf8EncodeChar c, b.toNat = c.toNat := by
  intro b hb
  have hv : c.val.toNat ≤ 127 := by have : c.val.toNat = c.toNat := rfl; omega
  unfold String.utf8EncodeChar at hb
  simp only [hv, if_true, List.mem_singleton] at hb
  subst hb
  have : c.val.toNat = c.toNat := rfl
  simp [this]
  omega

theorem parseUsize_chars {s : Str} {n : Nat} (h : parseUsize s = some n) :
    s ≠ [] ∧ ∀ c ∈ s, c.toNat = 43 ∨ 48 ≤ c.toNat ∧ c.toNat ≤ 57 := by
  unfold parseUsize at h
  simp only at h
  split at h
  · cases h
  · rename_i hc
    simp only [not_or, Decidable.not_not, List.all_eq_true, isDigitChar, Bool.and_eq_true, decide_eq_true_eq] at hc
    cases s with
    | nil => exact absurd rfl hc.1
    | cons a t =>
      refine ⟨List.cons_ne_nil _ _, fun c hm => ?_⟩
      by_cases ha : a = '+'
      · subst ha
        rcases List.mem_cons.mp hm with rfl | hm
        · exact .inl (by decide)
        · exact .inr (hc.2 c (by simpa [stripPlus] using hm))
      · exact .inr (hc.2 c (by simpa [stripPlus, ha] using hm))

/-- A byte of a number. -/
def NumberByte (b : UInt8) : Prop := b = 43 ∨ 48 ≤ b.toNat ∧ b.toNat ≤ 57

theorem decode_number_refused {delim : UInt8} {d : Bytes} {pos : Nat}
    (h : ∀ s, utf8 s = (takeThrough delim (d.drop pos)).dropLast → parseUsize s = none) :
    Refused (readNumber delim d pos) := by
  rw [readNumber_eq]
  unfold decodeToken
  cases hd : utf8Decode (takeThrough delim (d.drop pos)).dropLast with
  | none => exact ⟨_, rfl⟩
  | some s =>
    have := h s (utf8_of_utf8Decode hd)
    refine ⟨.format, ?_⟩
    simp [Res.ofOption, this]

theorem readNumber_byte {delim b : UInt8} {d : Bytes} {pos : Nat} (hb : b ∈ (takeThrough delim (d.drop pos)).dropLast)
    (hn : ¬NumberByte b) : Refused (readNumber delim d pos) := by
  refine decode_number_refused fun s hs => ?_
  cases hp : parseUsize s with
  | none => rfl
  | some n =>
    rw [← hs, utf8, List.mem_flatMap] at hb
    obtain ⟨c, hc, hm⟩ := hb
    have h := (parseUsize_chars hp).2 c hc
    have := utf8EncodeChar_small (by omega) b hm
    refine absurd ?_ hn
    rcases h with h | h
    · exact .inl (UInt8.toNat_inj.mp (by rw [this, h]; rfl))
    · exact .inr (by omega)

theorem takeThrough_ne_nil {delim : UInt8} {l : Bytes} (h : l ≠ []) : takeThrough delim l ≠ [] := by
  cases l with
  | nil => exact absurd rfl h
  | cons b l => unfold takeThrough; split <;> simp

theorem readNumber_empty {delim : UInt8} {d : Bytes} {pos : Nat} (h : (takeThrough delim (d.drop pos)).dropLast = []) :
    Refused (readNumber delim d pos) := by
  refine decode_number_refused fun s hs => ?_
  rw [h] at hs
  rw [utf8_injective (hs.trans utf8_nil.symm)]
  rfl

/-- A number that does not begin with a digit or a plus sign. -/
theorem readNumber_start {delim : UInt8} {d : Bytes} {pos : Nat} (h : ∀ b, (d.drop pos).head? = some b → ¬NumberByte b) :
    Refused (readNumber delim d pos) := by
  cases hd : d.drop pos with
  | nil => exact ⟨_, readNumber_end hd⟩
  | cons b r =>
    have hb := h b (by rw [hd]; rfl)
    by_cases he : b = delim
    · exact readNumber_empty (by simp [hd, takeThrough, he])
    · cases hr : takeThrough delim r with
      | nil => exact readNumber_empty (by simp [hd, takeThrough, he, hr])
      | cons c t => exact readNumber_byte (b := b) (by simp [hd, takeThrough, he, hr]) hb

section
variable {T F : Type} [Scalar F]

/-! ## The beginning of the data -/

/-- C125, magic number of fastText: the readers of fastText files refuse data that does not begin with it. -/
theorem c125_magic_fasttext [ScalarNat F] [FloatBits F] [ConfigToml T] (d : Bytes) (pos : Nat)
    (h : (d.drop pos).take 4 ≠ [0xBA, 0x16, 0x4F, 0x2F]) :
    ∀ lossy, Refused (readFastText lossy d pos : Res (Embeddings T FastTextSubwordVocab (NdArray F) F × Nat)) := by
  intro lossy
  unfold readFastText
  refine Refused.rbind ?_
  unfold readFtMagic
  rw [bind_apply, readU32_eq]
  cases hs : sliceAt d pos 4 with
  | none => exact ⟨.io, by simp [u32At, hs, Res.ofOption]⟩
  | some m =>
    have hm : m = (d.drop pos).take 4 ∧ m.length = 4 := by
      unfold sliceAt at hs
      split at hs
      · cases hs
        refine ⟨rfl, ?_⟩
        simp only [List.length_take, List.length_drop]
        omega
      · cases hs
    refine ⟨.format, ?_⟩
    have hne : leVal m ≠ fastTextMagic := by
      intro he
      have h4 : leBytes 4 (leVal m) = m := by rw [← hm.2]; exact leBytes_leVal m
      apply h
      rw [← hm.1, ← h4, he]
      decide
    simp [u32At, hs, Res.ofOption, hne]

/-- C125, magic number of finalfusion: the readers of finalfusion files refuse data that does not begin with it. -/
theorem c125_magic_finalfusion [Toml T] (d : Bytes) (pos : Nat) (h : (d.drop pos).take 4 ≠ [0x46, 0x69, 0x46, 0x75]) :
    Refused (readOptMetadata d pos : Res (Option (Metadata T) × Nat)) ∧
    ∀ {V S : Type} [ReadChunk V] (readStorage : Rd S), Refused (readWith readStorage d pos : Res (Embeddings T V S F32)) := by
  have hh : Refused (Header.read d pos) := by
    cases hs : sliceAt d pos 4 with
    | none =>
      refine ⟨.io, ?_⟩
      unfold Header.read
      rw [bind_apply, readExact_eq (by decide), hs]
      rfl
    | some m =>
      refine ⟨_, c02_magic d pos m hs ?_⟩
      unfold sliceAt at hs
      split at hs
      · cases hs; exact h
      · cases hs
  have hm : Refused (readOptMetadata d pos : Res (Option (Metadata T) × Nat)) := by
    unfold readOptMetadata
    exact hh.rbind
  refine ⟨hm, fun readStorage => ?_⟩
  unfold readWith readHead
  exact Refused.bind (Refused.rbind hm)

/-- C125, numbers: the readers of word2vec files, of text files with dimensions and of floret files refuse data that begins
with neither a digit nor a plus sign. -/
theorem c125_number (d : Bytes) (pos : Nat)
    (h : ∀ b, (d.drop pos).head? = some b → b ≠ 43 ∧ (b.toNat < 48 ∨ 57 < b.toNat)) :
    (∀ [FloatBits F] (lossy : Bool),
      Refused (readWord2vecRaw lossy d pos : Res (Embeddings T SimpleVocab (NdArray F) F × Nat)) ∧
      Refused (readWord2vec lossy d pos : Res (Embeddings T SimpleVocab (NdArray F) F × Nat))) ∧
    ∀ [FloatText F],
      (∀ lossy : Bool, Refused (readTextDimsRaw lossy d pos : Res (Embeddings T SimpleVocab (NdArray F) F)) ∧
        Refused (readTextDims lossy d pos : Res (Embeddings T SimpleVocab (NdArray F) F))) ∧
      Refused (Embeddings.readFloret d pos : Res (Embeddings T FloretSubwordVocab (NdArray F) F)) := by
  have hn : Refused (readNumber 32 d pos) := readNumber_start fun b hb => by
    have := h b hb
    rintro (h' | h')
    · exact this.1 h'
    · omega
  have hw : ∀ [FloatBits F] (lossy : Bool),
      Refused (readWord2vecRaw lossy d pos : Res (Embeddings T SimpleVocab (NdArray F) F × Nat)) := by
    intro _ lossy
    unfold readWord2vecRaw
    exact hn.rbind
  have ht : ∀ [FloatText F] (lossy : Bool),
      Refused (readTextDimsRaw lossy d pos : Res (Embeddings T SimpleVocab (NdArray F) F)) := by
    intro _ lossy
    unfold readTextDimsRaw
    exact hn.bind
  refine ⟨fun lossy => ⟨hw lossy, ?_⟩, ⟨fun lossy => ⟨ht lossy, ?_⟩, ?_⟩⟩
  · unfold readWord2vec
    exact (hw lossy).rbind
  · unfold readTextDims
    exact (ht lossy).bind
  · unfold Embeddings.readFloret readFloretHead
    exact Refused.bind hn.rbind

/-! ## The first line -/

theorem readNumber_or (delim : UInt8) (d : Bytes) (pos : Nat) :
    Refused (readNumber delim d pos) ∨ ∃ n, readNumber delim d pos = .ok (n, pos + (takeThrough delim (d.drop pos)).length) := by
  rw [readNumber_eq]
  unfold decodeToken
  cases utf8Decode (takeThrough delim (d.drop pos)).dropLast with
  | none => exact .inl ⟨_, rfl⟩
  | some s =>
    cases hp : parseUsize s with
    | none => exact .inl ⟨.format, by simp [Res.ofOption, hp]⟩
    | some n => exact .inr ⟨n, by simp [Res.ofOption, hp]⟩

/-- After a first number only the second field matters. -/
theorem readNumber_then {α : Type} {d a x : Bytes} {pos : Nat} {f : Nat → Rd α} (hd : d.drop pos = a ++ 32 :: x)
    (ha : (32 : UInt8) ∉ a) (h : ∀ n p, d.drop p = x → Refused (f n d p)) : Refused ((readNumber 32 >>= f) d pos) := by
  rcases readNumber_or 32 d pos with h' | ⟨n, h'⟩
  · exact h'.rbind
  · rw [bind_apply, h', Res.ok_bind]
    refine h _ _ ?_
    rw [← List.drop_drop, hd, takeThrough_append ha]
    simp

/-- A field up to a space, in which a line feed is before the space. -/
theorem floret_second {α : Type} {d b r : Bytes} {p : Nat} {f : Nat → Rd α} (hd : d.drop p = b ++ 10 :: r) (hb : (32 : UInt8) ∉ b)
    (h : ∀ n q, d.drop q = [] → Refused (f n d q)) : Refused ((readNumber 32 >>= f) d p) := by
  have ht : takeThrough 32 (d.drop p) = b ++ 10 :: takeThrough 32 r := by
    rw [hd]
    clear hd h
    induction b with
    | nil => simp [takeThrough]
    | cons c b ih =>
      have hc : c ≠ 32 := fun h => hb (h ▸ List.mem_cons_self ..)
      simp only [List.cons_append, takeThrough, if_neg hc]
      rw [ih fun h => hb (List.mem_cons_of_mem _ h)]
  cases r with
  | nil =>
    rcases readNumber_or 32 d p with h' | ⟨n, h'⟩
    · exact h'.rbind
    · rw [bind_apply, h', Res.ok_bind]
      refine h _ _ ?_
      rw [← List.drop_drop, ht, hd]
      simp [takeThrough]
  | cons c r =>
    refine Refused.rbind (readNumber_byte (b := 10) ?_ (by unfold NumberByte; decide))
    rw [ht, List.dropLast_append_of_ne_nil (List.cons_ne_nil _ _)]
    refine List.mem_append_right _ ?_
    rw [List.dropLast_cons_of_ne_nil (takeThrough_ne_nil (List.cons_ne_nil _ _))]
    exact List.mem_cons_self ..

/-- A field up to a line feed, with a space in it. -/
theorem dims_second {d b r : Bytes} {p : Nat} (hd : d.drop p = b ++ 32 :: r) (hb : (10 : UInt8) ∉ b) (hr : r ≠ []) :
    Refused (readNumber 10 d p) := by
  have ht : takeThrough 10 (d.drop p) = b ++ 32 :: takeThrough 10 r := by
    rw [hd]
    clear hd
    induction b with
    | nil => simp [takeThrough]
    | cons c b ih =>
      have hc : c ≠ 10 := fun h => hb (h ▸ List.mem_cons_self ..)
      simp only [List.cons_append, takeThrough, if_neg hc]
      rw [ih fun h => hb (List.mem_cons_of_mem _ h)]
  refine readNumber_byte (b := 32) ?_ (by unfold NumberByte; decide)
  rw [ht, List.dropLast_append_of_ne_nil (List.cons_ne_nil _ _)]
  refine List.mem_append_right _ ?_
  rw [List.dropLast_cons_of_ne_nil (takeThrough_ne_nil hr)]
  exact List.mem_cons_self ..

/-- C125, first lines: the reader of floret files refuses data whose first line has only two fields; the readers of word2vec
files and of text files with dimensions refuse data whose first line has more than two fields. -/
theorem c125_first_line (d a b r : Bytes) (pos : Nat) (ha : (32 : UInt8) ∉ a) (hb : (32 : UInt8) ∉ b) :
    (d.drop pos = a ++ 32 :: (b ++ 10 :: r) → ∀ [FloatText F],
      Refused (Embeddings.readFloret d pos : Res (Embeddings T FloretSubwordVocab (NdArray F) F))) ∧
    (d.drop pos = a ++ 32 :: (b ++ 32 :: r) → (10 : UInt8) ∉ b → r ≠ [] →
      (∀ [FloatBits F] (lossy : Bool),
        Refused (readWord2vecRaw lossy d pos : Res (Embeddings T SimpleVocab (NdArray F) F × Nat)) ∧
        Refused (readWord2vec lossy d pos : Res (Embeddings T SimpleVocab (NdArray F) F × Nat))) ∧
      ∀ [FloatText F] (lossy : Bool),
        Refused (readTextDimsRaw lossy d pos : Res (Embeddings T SimpleVocab (NdArray F) F)) ∧
        Refused (readTextDims lossy d pos : Res (Embeddings T SimpleVocab (NdArray F) F))) := by
  constructor
  · intro hd _
    unfold Embeddings.readFloret readFloretHead
    refine Refused.bind (readNumber_then hd ha fun n p hp => floret_second hp hb fun m q hq => Refused.rbind ?_)
    exact ⟨_, readNumber_end hq⟩
  · intro hd hb' hr
    have hw : ∀ [FloatBits F] (lossy : Bool),
        Refused (readWord2vecRaw lossy d pos : Res (Embeddings T SimpleVocab (NdArray F) F × Nat)) := by
      intro _ lossy
      unfold readWord2vecRaw
      exact readNumber_then hd ha fun n p hp => (dims_second hp hb' hr).rbind
    have ht : ∀ [FloatText F] (lossy : Bool),
        Refused (readTextDimsRaw lossy d pos : Res (Embeddings T SimpleVocab (NdArray F) F)) := by
      intro _ lossy
      unfold readTextDimsRaw
      rcases readNumber_or 32 d pos with h' | ⟨n, h'⟩
      · exact h'.bind
      · rw [h', Res.ok_bind]
        refine Refused.bind (dims_second (b := b) (r := r) ?_ hb' hr)
        rw [← List.drop_drop, hd, takeThrough_append ha]
        simp
    refine ⟨fun lossy => ⟨hw lossy, ?_⟩, fun lossy => ⟨ht lossy, ?_⟩⟩
    · unfold readWord2vec
      exact (hw lossy).rbind
    · unfold readTextDims
      exact (ht lossy).bind

/-! ## Written files -/

theorem utf8_ne_fastText (s : Str) (x : Bytes) : utf8 s ≠ 0xBA :: 0x16 :: x := by
  intro h
  cases s with
  | nil => cases h
  | cons c s =>
    rw [utf8_cons] at h
    have hsmall : ∀ b, b.toNat < 128 → String.utf8EncodeChar c = [b] → b ≠ 0xBA := by
      rintro b hb - rfl
      exact absurd hb (by decide)
    match hc : String.utf8EncodeChar c with
    | [] => have := c.utf8Size_pos; have hl : (String.utf8EncodeChar c).length = c.utf8Size := by simp
            rw [hc] at hl; simp at hl; omega
    | [b] =>
      rw [hc] at h
      have hb : b = 0xBA := (List.cons.inj h).1
      have hl : (String.utf8EncodeChar c).length = c.utf8Size := by simp
      rw [hc] at hl
      have h1 : c.toNat < 128 := by
        by_cases hv : c.val.toNat ≤ 127
        · have : c.val.toNat = c.toNat := rfl
          omega
        · exfalso
          unfold String.utf8EncodeChar at hc
          simp only [hv, if_false] at hc
          split at hc
          · cases hc
          · split at hc <;> cases hc
      have := utf8EncodeChar_small h1 b (by rw [hc]; exact List.mem_singleton.mpr rfl)
      rw [hb] at this
      exact absurd (this ▸ h1) (by decide)
    | b :: b' :: t =>
      rw [hc] at h
      have hb : b' = 0x16 := (List.cons.inj (List.cons.inj h).2).1
      have := mem_utf8EncodeChar_ascii (c := c) (b := b') (by rw [hc]; simp) (by rw [hb]; decide)
      rw [hc] at this
      exact absurd this.2 (by simp)

theorem W.bytes_seq_prefix (a b : W) : a.bytes <+: (a ++ b).bytes := by
  by_cases h : W.Good a
  · rw [W.bytes_seq h]; exact List.prefix_append _ _
  · obtain ⟨bs, st⟩ := a
    cases st with
    | ok u => exact absurd rfl h
    | err x => exact List.prefix_refl _
    | panic => exact List.prefix_refl _

theorem printNat_head (n : Nat) (r : Bytes) :
    ∃ b t, utf8 (printNat n) ++ r = b :: t ∧ 48 ≤ b.toNat ∧ b.toNat ≤ 57 := by
  cases hp : printNat n with
  | nil => exact absurd hp (printNat_ne_nil n)
  | cons c s =>
    have hc := printNat_digits n c (by rw [hp]; exact List.mem_cons_self ..)
    simp only [isDigitChar, Bool.and_eq_true, decide_eq_true_eq] at hc
    rw [utf8_cons]
    have hl : (String.utf8EncodeChar c).length = c.utf8Size := by simp
    cases he : String.utf8EncodeChar c with
    | nil => rw [he] at hl; have := c.utf8Size_pos; simp at hl; omega
    | cons b t =>
      refine ⟨b, t ++ utf8 s ++ r, by simp, ?_⟩
      have := utf8EncodeChar_small (c := c) (by omega) b (by rw [he]; exact List.mem_cons_self ..)
      omega

/-- Data that begins with a digit begins with no magic number. -/
theorem digit_no_magic {d t : Bytes} {b : UInt8} (hd : d = b :: t) (h : 48 ≤ b.toNat ∧ b.toNat ≤ 57) :
    (d.drop 0).take 4 ≠ [0xBA, 0x16, 0x4F, 0x2F] ∧ (d.drop 0).take 4 ≠ [0x46, 0x69, 0x46, 0x75] := by
  subst hd
  constructor
  · intro he
    have := (List.cons.inj he).1
    subst this
    exact absurd h (by decide)
  · intro he
    have := (List.cons.inj he).1
    subst this
    exact absurd h (by decide)

/-- `read_fasttext` and `read_fasttext_lossy` (src/compat/fasttext/io.rs:40-48) refuse a file. -/
def RefusedByFastText (T F : Type) [Scalar F] [ScalarNat F] [FloatBits F] [ConfigToml T] (d : Bytes) : Prop :=
  ∀ lossy, Refused (readFastText lossy d 0 : Res (Embeddings T FastTextSubwordVocab (NdArray F) F × Nat))

/-- `read_metadata`, `read_embeddings` and `mmap_embeddings` (src/chunks/metadata.rs:109-129, src/embeddings.rs:485-547)
refuse a file, for all vocabularies and storages. -/
def RefusedByFinalfusion (T : Type) [Toml T] (d : Bytes) : Prop :=
  Refused (readOptMetadata d 0 : Res (Option (Metadata T) × Nat)) ∧
  ∀ (V S : Type) [ReadChunk V] (readStorage : Rd S), Refused (readWith readStorage d 0 : Res (Embeddings T V S F32))

/-- The four readers of src/compat/word2vec.rs:58-88 refuse a file. -/
def RefusedByWord2vec (T F : Type) [Scalar F] [FloatBits F] (d : Bytes) : Prop :=
  ∀ lossy, Refused (readWord2vecRaw lossy d 0 : Res (Embeddings T SimpleVocab (NdArray F) F × Nat)) ∧
    Refused (readWord2vec lossy d 0 : Res (Embeddings T SimpleVocab (NdArray F) F × Nat))

/-- The four readers of src/compat/text.rs:139-186 refuse a file. -/
def RefusedByTextDims (T F : Type) [Scalar F] [FloatText F] (d : Bytes) : Prop :=
  ∀ lossy, Refused (readTextDimsRaw lossy d 0 : Res (Embeddings T SimpleVocab (NdArray F) F)) ∧
    Refused (readTextDims lossy d 0 : Res (Embeddings T SimpleVocab (NdArray F) F))

/-- `read_floret_text` (src/compat/floret/io.rs:28-101) refuses a file. -/
def RefusedByFloret (T F : Type) [Scalar F] [FloatText F] (d : Bytes) : Prop :=
  Refused (Embeddings.readFloret d 0 : Res (Embeddings T FloretSubwordVocab (NdArray F) F))

/-- `read_text` and `read_text_raw`, or their lossy variants (src/compat/text.rs:73-85, :101-108), refuse a file. -/
def RefusedByText (T F : Type) [Scalar F] [FloatText F] (lossy : Bool) (d : Bytes) : Prop :=
  Refused (readTextRaw lossy d 0 : Res (Embeddings T SimpleVocab (NdArray F) F)) ∧
  Refused (readText lossy d 0 : Res (Embeddings T SimpleVocab (NdArray F) F))

variable {T' : Type}

section
variable [FloatBits F] [FloatText F]

theorem refused_number {d : Bytes} (h : ∀ b, d.head? = some b → b ≠ 43 ∧ (b.toNat < 48 ∨ 57 < b.toNat)) :
    RefusedByWord2vec T F d ∧ RefusedByTextDims T F d ∧ RefusedByFloret T F d := by
  have h := c125_number (T := T) (F := F) d 0 h
  exact ⟨h.1, h.2.1, h.2.2⟩

omit [FloatText F] in
theorem refused_fastText [ScalarNat F] [ConfigToml T] {d : Bytes} (h : d.take 4 ≠ [0xBA, 0x16, 0x4F, 0x2F]) :
    RefusedByFastText T F d := c125_magic_fasttext d 0 h

theorem refused_finalfusion [Toml T] {d : Bytes} (h : d.take 4 ≠ [0x46, 0x69, 0x46, 0x75]) :
    RefusedByFinalfusion T d :=
  have h := (c125_magic_finalfusion (T := T) d 0) h
  ⟨h.1, fun _ _ => h.2⟩

/-- C125, finalfusion files: the readers of fastText files, word2vec files, text files with dimensions and floret files
refuse them. -/
theorem c125_finalfusion_partial {V S : Type} [Toml T'] [Vocab V] [WriteChunk V] [WriteChunk S] (e : Embeddings T' V S F32)
    (off : Nat) [ScalarNat F] [ConfigToml T] :
    RefusedByFastText T F (e.write off).bytes ∧ RefusedByWord2vec T F (e.write off).bytes ∧
    RefusedByTextDims T F (e.write off).bytes ∧ RefusedByFloret T F (e.write off).bytes := by
  obtain ⟨t, ht⟩ : ∃ t, (e.write off).bytes = 0x46 :: 0x69 :: 0x46 :: 0x75 :: t := by
    have hh := c65_header (Header.mk e.chunkIds)
    unfold Embeddings.write andThen
    rw [W.bytes_seq hh.1, hh.2]
    exact ⟨_, rfl⟩
  rw [ht]
  refine ⟨refused_fastText (by simp), refused_number ?_⟩
  rintro b ⟨⟩
  decide

theorem invalid_start (u : Bytes) : ∀ c, ¬String.utf8EncodeChar c <+: 0xBA :: 0x16 :: u := by
  rintro c ⟨x, hx⟩
  have hl : (String.utf8EncodeChar c).length = c.utf8Size := by simp
  have hpos := c.utf8Size_pos
  match hc : String.utf8EncodeChar c with
  | [] => rw [hc] at hl; simp at hl; omega
  | [b] =>
    rw [hc] at hx
    have hb : b = 0xBA := (List.cons.inj hx).1
    exact utf8_ne_fastText [c, Char.ofNat 0x16] [] (by simp only [utf8_cons, hc, hb]; rfl)
  | b :: b' :: r =>
    rw [hc] at hx
    have hb : b = 0xBA := (List.cons.inj hx).1
    have hb' : b' = 0x16 := (List.cons.inj (List.cons.inj hx).2).1
    exact utf8_ne_fastText [c] r (by simp only [utf8_cons, hc, hb, hb']; simp)

theorem lossy_start (u : Bytes) : utf8Lossy (0xBA :: 0x16 :: 0x4F :: 0x2F :: 0x0C :: 0 :: u) =
    [Char.ofNat 0xFFFD, Char.ofNat 0x16, 'O', '/'] ++ Char.ofNat 0x0C :: (Char.ofNat 0 :: utf8Lossy u) := by
  have hc : ∀ (c : Char) (b : UInt8) (bs : Bytes), String.utf8EncodeChar c = [b] → utf8Lossy (b :: bs) = c :: utf8Lossy bs := by
    intro c b bs h
    have := utf8Lossy_char c bs
    rwa [h] at this
  rw [utf8Lossy_bad (List.cons_ne_nil _ _) (invalid_start _)]
  have hi : invalidLen (0xBA :: 0x16 :: 0x4F :: 0x2F :: 0x0C :: 0 :: u) = 1 := by
    simp only [invalidLen]
    rw [if_neg (by decide)]
  rw [hi, List.drop_one, List.tail_cons, hc (Char.ofNat 0x16) _ _ (by decide), hc 'O' _ _ (by decide), hc '/' _ _ (by decide),
    hc (Char.ofNat 0x0C) _ _ (by decide), hc (Char.ofNat 0) _ _ (by decide)]
  rfl

omit [FloatBits F] in
/-- A file that begins like a fastText file, read as text: the first line begins with a byte that is not UTF-8, and its second
field with a null character. -/
theorem fastText_as_text (t : Bytes) (lossy : Bool)
    (hp : lossy = true → ∀ s : Str, (FloatText.parse (Char.ofNat 0 :: s) : Option F) = none) :
    RefusedByText T F lossy (0xBA :: 0x16 :: 0x4F :: 0x2F :: 0x0C :: 0 :: t) := by
  have hr : Refused (readTextRaw lossy (0xBA :: 0x16 :: 0x4F :: 0x2F :: 0x0C :: 0 :: t) 0 :
      Res (Embeddings T SimpleVocab (NdArray F) F)) := by
    unfold readTextRaw readEmbeds allocTable
    simp only [Res.ok_bind]
    refine Refused.bind ?_
    have hl : ∃ u l, textLines (List.drop 0 (0xBA :: 0x16 :: 0x4F :: 0x2F :: 0x0C :: 0 :: t)) =
        (0xBA :: 0x16 :: 0x4F :: 0x2F :: 0x0C :: 0 :: u) :: l := by
      unfold textLines
      simp only [List.drop_zero, List.length_cons, rawLines, takeThrough, show (0xBA : UInt8) ≠ 10 by decide,
        show (0x16 : UInt8) ≠ 10 by decide, show (0x4F : UInt8) ≠ 10 by decide, show (0x2F : UInt8) ≠ 10 by decide,
        show (0x0C : UInt8) ≠ 10 by decide, show (0 : UInt8) ≠ 10 by decide, if_false, List.map_cons]
      unfold stripLast
      split
      · rename_i h
        cases ht : takeThrough 10 t with
        | nil => rw [ht] at h; exact absurd h (by decide)
        | cons b r => exact ⟨_, _, rfl⟩
      · exact ⟨_, _, rfl⟩
    obtain ⟨u, l, hl⟩ := hl
    rw [hl, List.mapM_cons]
    refine Refused.bind ?_
    unfold readTextLine decodeToken
    cases lossy with
    | false =>
      have hd : utf8Decode (0xBA :: 0x16 :: 0x4F :: 0x2F :: 0x0C :: 0 :: u) = none := by
        cases hd : utf8Decode (0xBA :: 0x16 :: 0x4F :: 0x2F :: 0x0C :: 0 :: u) with
        | none => rfl
        | some s => exact absurd (utf8_of_utf8Decode hd) (utf8_ne_fastText s _)
      simp only [Bool.false_eq_true, if_false, hd]
      exact Refused.bind ⟨_, rfl⟩
    | true =>
      simp only [if_true, Res.ok_bind, lossy_start]
      obtain ⟨x, ps, hps⟩ : ∃ x ps, parts (Char.ofNat 0 :: utf8Lossy u) = (Char.ofNat 0 :: x) :: ps := by
        unfold parts splitBy
        rw [if_neg (by decide)]
        cases splitBy isAsciiWs (utf8Lossy u) with
        | nil => exact ⟨[], [], rfl⟩
        | cons w ws => exact ⟨w, ws.filter (· ≠ []), by simp⟩
      have hw : parts ([Char.ofNat 0xFFFD, Char.ofNat 0x16, 'O', '/'] ++ Char.ofNat 0x0C :: (Char.ofNat 0 :: utf8Lossy u)) =
          [Char.ofNat 0xFFFD, Char.ofNat 0x16, 'O', '/'] :: (Char.ofNat 0 :: x) :: ps := by
        rw [parts_token_append ⟨by decide, by decide⟩ (by rintro c ⟨⟩; decide), ← hps]
        exact congrArg _ (parts_ws (s := [Char.ofNat 0x0C]) (by simp; decide) _)
      rw [hw]
      refine Refused.bind ?_
      rw [List.mapM_cons, hp rfl]
      exact Refused.bind ⟨_, rfl⟩
  exact ⟨hr, by unfold readText; exact hr.bind⟩

/-- C125, fastText files: the readers of finalfusion files, word2vec files, text files with dimensions, floret files and text
files refuse them; the lossy readers of text files do if a number cannot begin with a null character. -/
theorem c125_fasttext_partial {S : Type} [Storage S F] [ScalarNat F] (e : Embeddings T' FastTextSubwordVocab S F) [Toml T]
    (h : e.writeFastText.bytes ≠ []) :
    RefusedByFinalfusion T e.writeFastText.bytes ∧ RefusedByWord2vec T F e.writeFastText.bytes ∧
    RefusedByTextDims T F e.writeFastText.bytes ∧ RefusedByFloret T F e.writeFastText.bytes ∧
    RefusedByText T F false e.writeFastText.bytes ∧
    ((∀ s : Str, (FloatText.parse (Char.ofNat 0 :: s) : Option F) = none) → RefusedByText T F true e.writeFastText.bytes) := by
  obtain ⟨t, ht⟩ : ∃ t, e.writeFastText.bytes = 0xBA :: 0x16 :: 0x4F :: 0x2F :: 0x0C :: 0 :: t := by
    unfold writeFastText at h ⊢
    cases hc : e.ftConfig with
    | err x => rw [hc] at h; exact absurd rfl h
    | panic => rw [hc] at h; exact absurd rfl h
    | ok c =>
      have hp : ∀ a b : W, leBytes 4 fastTextMagic ++ leBytes 4 fastTextVersion <+: a.bytes →
          leBytes 4 fastTextMagic ++ leBytes 4 fastTextVersion <+: (a ++ b).bytes :=
        fun a b h => h.trans (W.bytes_seq_prefix a b)
      have : leBytes 4 fastTextMagic ++ leBytes 4 fastTextVersion <+: (W.u32 fastTextMagic ++ W.u32 fastTextVersion ++
          writeFtConfig c ++ writeFtVocab e.vocab ++ W.emit [0] ++ e.writeFtEmbeddings).bytes := by
        refine hp _ _ (hp _ _ (hp _ _ (hp _ _ ?_)))
        rw [W.bytes_seq (W.good_u32 _), W.bytes_u32, W.bytes_u32]
        exact List.prefix_refl _
      obtain ⟨t, ht⟩ := this
      exact ⟨_, ht.symm⟩
  rw [ht]
  have hn := refused_number (T := T) (F := F) (d := 0xBA :: 0x16 :: 0x4F :: 0x2F :: 0x0C :: 0 :: t) (by rintro b ⟨⟩; decide)
  exact ⟨refused_finalfusion (by simp), hn.1, hn.2.1, hn.2.2, fastText_as_text t false (by simp),
    fun hp => fastText_as_text t true fun _ => hp⟩

/-- C125, word2vec files and text files with dimensions: the readers of finalfusion, fastText and floret files refuse them. -/
theorem c125_dims_partial {V S : Type} [Vocab V] [Storage S F] (e : Embeddings T' V S F) (un : Bool) [Toml T] [ScalarNat F]
    [ConfigToml T] (d : Bytes) (hd : d = (e.writeWord2vec un).bytes ∨ d = (e.writeTextDims un).bytes) :
    RefusedByFinalfusion T d ∧ RefusedByFastText T F d ∧ RefusedByFloret T F d := by
  obtain ⟨r, hr⟩ : ∃ r, d = utf8 (printNat (Vocab.wordsLen e.vocab)) ++ 32 :: (utf8 (printNat e.dims) ++ 10 :: r) := by
    have h : ∀ w : W, ∃ r, (e.shapeLine ++ w).bytes =
        utf8 (printNat (Vocab.wordsLen e.vocab)) ++ 32 :: (utf8 (printNat e.dims) ++ 10 :: r) := by
      intro w
      obtain ⟨r, hr⟩ := W.bytes_seq_prefix e.shapeLine w
      refine ⟨r, ?_⟩
      rw [← hr]
      simp [shapeLine]
    rcases hd with rfl | rfl
    · exact h _
    · exact h _
  obtain ⟨b, t, hb, hb'⟩ := printNat_head (Vocab.wordsLen e.vocab) (32 :: (utf8 (printNat e.dims) ++ 10 :: r))
  have hm := digit_no_magic (hr.trans hb) hb'
  refine ⟨refused_finalfusion hm.2, refused_fastText hm.1, ?_⟩
  exact (c125_first_line d _ _ r 0 (not_mem_utf8_printNat (by decide)) (not_mem_utf8_printNat (by decide))).1 hr

/-- C125, floret files: the readers of finalfusion files, fastText files, word2vec files and text files with dimensions refuse
them. -/
theorem c125_floret_partial (e : Embeddings T' FloretSubwordVocab (NdArray F) F) [Toml T] [ScalarNat F] [ConfigToml T]
    (h : e.writeFloret.bytes ≠ []) :
    RefusedByFinalfusion T e.writeFloret.bytes ∧ RefusedByFastText T F e.writeFloret.bytes ∧
    RefusedByWord2vec T F e.writeFloret.bytes ∧ RefusedByTextDims T F e.writeFloret.bytes := by
  obtain ⟨n, r, hr, hr'⟩ : ∃ n r, e.writeFloret.bytes = utf8 (printNat n) ++ 32 :: (utf8 (printNat e.dims) ++ 32 :: r) ∧ r ≠ [] := by
    unfold Embeddings.writeFloret floretHeadLine at h ⊢
    cases hv : Vocab.vocabLen e.vocab with
    | err x => rw [hv] at h; exact absurd rfl h
    | panic => rw [hv] at h; exact absurd rfl h
    | ok n =>
      obtain ⟨r, hr⟩ := (W.bytes_seq_prefix _ _).trans (W.bytes_seq_prefix
        ((W.ofRes (.ok n) fun n =>
          W.emit (utf8 (printNat (n - Vocab.wordsLen e.vocab)) ++ 32 :: utf8 (printNat e.dims) ++
            32 :: utf8 (printNat e.vocab.minN) ++ 32 :: utf8 (printNat e.vocab.maxN) ++
            32 :: utf8 (printNat e.vocab.indexer.nHashes) ++ 32 :: utf8 (printNat e.vocab.indexer.seed.toNat) ++
            32 :: utf8 e.vocab.bow ++ 32 :: utf8 e.vocab.eow ++ [10])) ++
          W.done (Res.assert (Vocab.wordsLen e.vocab ≤ e.storage.inner.nrows)))
        (W.each floretRowLine (e.storage.inner.rows.drop (Vocab.wordsLen e.vocab)).zipIdx))
      refine ⟨n - Vocab.wordsLen e.vocab, utf8 (printNat e.vocab.minN) ++ 32 :: (utf8 (printNat e.vocab.maxN) ++
        32 :: (utf8 (printNat e.vocab.indexer.nHashes) ++ 32 :: (utf8 (printNat e.vocab.indexer.seed.toNat) ++
        32 :: (utf8 e.vocab.bow ++ 32 :: (utf8 e.vocab.eow ++ 10 :: r))))), hr.symm.trans ?_, by simp⟩
      simp [W.ofRes]
  obtain ⟨b, t, hb, hb'⟩ := printNat_head n (32 :: (utf8 (printNat e.dims) ++ 32 :: r))
  have hm := digit_no_magic (hr.trans hb) hb'
  have hl := (c125_first_line (T := T) (F := F) e.writeFloret.bytes _ _ r 0 (not_mem_utf8_printNat (by decide))
    (not_mem_utf8_printNat (by decide))).2 hr (not_mem_utf8_printNat (by decide)) hr'
  exact ⟨refused_finalfusion hm.2, refused_fastText hm.1, hl.1, hl.2⟩

omit [FloatBits F] in
theorem writeText_start {V S : Type} [Vocab V] [Storage S F] (e : Embeddings T' V S F) (un : Bool) :
    (e.writeText un).bytes = [] ∨
      ∃ w s t, (Vocab.words e.vocab).head? = some w ∧ (e.writeText un).bytes = utf8 (w ++ ' ' :: s) ++ t := by
  unfold writeText eachRow
  cases hw : Vocab.words e.vocab with
  | nil => exact .inl rfl
  | cons w ws =>
    rw [List.zipIdx_cons, W.each]
    generalize W.each _ (ws.zipIdx (0 + 1)) = rest
    cases hr : (do
      let v ← Storage.embedding e.storage 0
      let n ← e.normAt 0
      return (v, n) : Res (List F × F)) with
    | ok vn =>
      refine .inr ⟨w, joinFloats (if un then intoUnnormalized vn else vn.1), [10] ++ rest.bytes, rfl, ?_⟩
      rw [← List.append_assoc]
      exact (W.bytes_seq (a := W.emit _) rfl).trans (congrArg (· ++ rest.bytes) (W.bytes_emit _))
    | err x => exact .inl rfl
    | panic => exact .inl rfl

theorem utf8_ascii_head {c : Char} {s : Str} {b : UInt8} {t u : Bytes} (hb : b.toNat < 128) (h : utf8 (c :: s) ++ u = b :: t) :
    c.toNat = b.toNat ∧ utf8 s ++ u = t := by
  rw [utf8_cons] at h
  cases he : String.utf8EncodeChar c with
  | nil =>
    have hl : (String.utf8EncodeChar c).length = c.utf8Size := by simp
    rw [he] at hl; have := c.utf8Size_pos; simp at hl; omega
  | cons b' r =>
    rw [he] at h
    obtain ⟨rfl, h'⟩ := List.cons.inj h
    have := mem_utf8EncodeChar_ascii (c := c) (b := b') (by rw [he]; exact List.mem_cons_self ..) hb
    rw [he] at this
    have hr : r = [] := (List.cons.inj this.2).2
    subst hr
    exact ⟨this.1, h'⟩

/-- C125, text files: the reader of fastText files refuses them; the readers of finalfusion files refuse them if the first word
does not begin with `FiFu`; the readers of word2vec files, text files with dimensions and floret files refuse them if the first
word does not begin with a digit or a plus sign. -/
theorem c125_text_partial {V S : Type} [Vocab V] [Storage S F] (e : Embeddings T' V S F) (un : Bool) [Toml T] [ScalarNat F]
    [ConfigToml T] :
    RefusedByFastText T F (e.writeText un).bytes ∧
    ((∀ w, (Vocab.words e.vocab).head? = some w → ¬['F', 'i', 'F', 'u'] <+: w) →
      RefusedByFinalfusion T (e.writeText un).bytes) ∧
    ((∀ w c, (Vocab.words e.vocab).head? = some w → w.head? = some c → c ≠ '+' ∧ (c.toNat < 48 ∨ 57 < c.toNat)) →
      RefusedByWord2vec T F (e.writeText un).bytes ∧ RefusedByTextDims T F (e.writeText un).bytes ∧
      RefusedByFloret T F (e.writeText un).bytes) := by
  rcases writeText_start e un with h | ⟨w, s, t, hw, h⟩
  · rw [h]
    exact ⟨refused_fastText (by simp), fun _ => refused_finalfusion (by simp), fun _ => refused_number (by simp)⟩
  · rw [h]
    refine ⟨refused_fastText ?_, fun hn => refused_finalfusion ?_, fun hn => refused_number ?_⟩
    · intro he
      generalize hs : w ++ ' ' :: s = s' at he
      cases s' with
      | nil => simp at hs
      | cons c s' =>
        rw [utf8_cons] at he
        have hpos := c.utf8Size_pos
        have hl : (String.utf8EncodeChar c).length = c.utf8Size := by simp
        match hc : String.utf8EncodeChar c with
        | [] => rw [hc] at hl; simp at hl; omega
        | b :: r =>
          rw [hc] at he
          have hb : b = 0xBA := (List.cons.inj he).1
          cases r with
          | nil => exact utf8_ne_fastText [c, Char.ofNat 0x16] [] (by simp only [utf8_cons, hc, hb]; rfl)
          | cons b' r =>
            have hb' : b' = 0x16 := (List.cons.inj (List.cons.inj he).2).1
            exact utf8_ne_fastText [c] r (by simp only [utf8_cons, hc, hb, hb']; simp)
    · intro he
      apply hn w hw
      generalize hx : utf8 (w ++ ' ' :: s) ++ t = x at he
      match x, he with
      | a :: b :: c :: d :: x, he =>
        obtain ⟨rfl, rfl, rfl, rfl⟩ : a = 0x46 ∧ b = 0x69 ∧ c = 0x46 ∧ d = 0x75 := by simpa using he
        have hch : ∀ {c : Char} {n : Nat}, c.toNat = n → c = Char.ofNat n := by rintro c n rfl; exact (Char.ofNat_toNat c).symm
        cases w with
        | nil => exact absurd (utf8_ascii_head (by decide) hx).1 (by decide)
        | cons c1 w =>
          obtain ⟨h1, hx⟩ := utf8_ascii_head (by decide) hx
          cases w with
          | nil => exact absurd (utf8_ascii_head (by decide) hx).1 (by decide)
          | cons c2 w =>
            obtain ⟨h2, hx⟩ := utf8_ascii_head (by decide) hx
            cases w with
            | nil => exact absurd (utf8_ascii_head (by decide) hx).1 (by decide)
            | cons c3 w =>
              obtain ⟨h3, hx⟩ := utf8_ascii_head (by decide) hx
              cases w with
              | nil => exact absurd (utf8_ascii_head (by decide) hx).1 (by decide)
              | cons c4 w =>
                obtain ⟨h4, hx⟩ := utf8_ascii_head (by decide) hx
                refine ⟨w, ?_⟩
                rw [hch h1, hch h2, hch h3, hch h4]
                rfl
      | [], he => simp at he
      | [_], he => simp at he
      | [_, _], he => simp at he
      | [_, _, _], he => simp at he
    · intro b hb
      cases hx : utf8 (w ++ ' ' :: s) ++ t with
      | nil => rw [hx] at hb; cases hb
      | cons b' t' =>
        rw [hx] at hb
        obtain rfl : b' = b := by simpa using hb
        by_cases h128 : b'.toNat < 128
        · cases w with
          | nil =>
            have := (utf8_ascii_head h128 hx).1
            have h32 : b' = 32 := UInt8.toNat_inj.mp this.symm
            subst h32
            decide
          | cons c w =>
            have hc := (utf8_ascii_head h128 hx).1
            have := hn _ c hw rfl
            refine ⟨?_, by omega⟩
            rintro rfl
            refine this.1 ?_
            rw [← Char.ofNat_toNat c, hc]
            rfl
        · refine ⟨?_, by omega⟩
          rintro rfl
          exact h128 (by decide)

end

end

/-! ## Files that are accepted by other readers -/

attribute [local instance] exampleScalar exampleFloatText exampleToml

/-- The words and components of embeddings that were read. -/
def table (r : Res (Embeddings Str SimpleVocab (NdArray F32) F32)) : Res (List Str × List (List F32)) :=
  r.map fun e => (e.vocab.words, e.storage.inner.rows)

/-- One word, `a`, with one component, whose decimal form has four digits. -/
def dimsExample : Embeddings Str SimpleVocab (NdArray F32) F32 :=
  ⟨none, ⟨⟨1, [[1234]]⟩⟩, ⟨indexMap [['a']], [['a']]⟩, none⟩

/-- One word, `a`, with one component, whose bytes are digits. -/
def word2vecExample : Embeddings Str SimpleVocab (NdArray F32) F32 :=
  ⟨none, ⟨⟨1, [[0x34333231]]⟩⟩, ⟨indexMap [['a']], [['a']]⟩, none⟩

/-- The full property is false: a text file with dimensions is accepted by the readers of word2vec and of text files, a word2vec
file by the readers of text files with dimensions and of text files, a text file by the reader of text files with dimensions,
with other contents. -/
theorem c125_not_all :
    (dimsExample.writeTextDims false).bytes = ascii "1 1\na 1234\n" ∧
    table ((readWord2vecRaw false (ascii "1 1\na 1234\n") 0).map (·.1)) = .ok ([['a']], [[0x34333231]]) ∧
    table (readTextRaw false (ascii "1 1\na 1234\n") 0) = .ok ([['1'], ['a']], [[1], [1234]]) ∧
    (word2vecExample.writeWord2vec false).bytes = ascii "1 1\na 1234\n" ∧
    table (readTextDimsRaw false (ascii "1 1\na 1234\n") 0) = .ok ([['a']], [[1234]]) := by
  refine ⟨?_, ?_, ?_, ?_, ?_⟩ <;> decide +kernel

/-- One word, `ab`, with one component. -/
def finalfusionExample : Embeddings Str SimpleVocab (NdArray F32) F32 :=
  ⟨none, ⟨⟨1, [[0x41414141]]⟩⟩, ⟨indexMap [['a', 'b']], [['a', 'b']]⟩, none⟩

/-- One bucket with one component; the markers are digits. -/
def floretExample : Embeddings Str FloretSubwordVocab (NdArray F32) F32 :=
  ⟨none, ⟨⟨1, [[5]]⟩⟩, ⟨['1'], ['2'], ⟨1, 1, 7⟩, indexMap [], [], 3, 3⟩, none⟩

/-- Two words, `1` and `a`. -/
def textExample : Embeddings Str SimpleVocab (NdArray F32) F32 :=
  ⟨none, ⟨⟨1, [[1], [1234]]⟩⟩, ⟨indexMap [['1'], ['a']], [['1'], ['a']]⟩, none⟩

/-- The full property is false for the readers of text files, and for text files: these readers accept the finalfusion file and
the floret file, and the text file is the file of `c125_not_all`, which the readers of word2vec files and of text files with
dimensions accept. -/
theorem c125_not_text :
    (table (readTextRaw false (finalfusionExample.write 0).bytes 0)).map (fun t => (t.1.length, t.2)) = .ok (2, [[], []]) ∧
    floretExample.writeFloret.bytes = ascii "1 1 3 3 7 1 1 2\n0 5\n" ∧
    table (readTextRaw false (ascii "1 1 3 3 7 1 1 2\n0 5\n") 0) = .ok ([['1'], ['0']], [[1, 3, 3, 7], [1, 1, 2, 5]]) ∧
    (textExample.writeText false).bytes = ascii "1 1\na 1234\n" := by
  refine ⟨?_, ?_, ?_, ?_⟩ <;> decide +kernel

/-! ## Examples -/

attribute [local instance] exampleScalarNat exampleConfigToml

/-- The data of `c125_magic_fasttext`, `c125_magic_finalfusion` and `c125_number` can be met: one wrong byte, and a letter. -/
example := c125_magic_fasttext (T := FtConfig) (F := F32) [0xBA, 0x16, 0x4F, 0x2E, 12, 0, 0, 0] 0 (by decide) true
example := c125_magic_finalfusion (T := Str) [0x46, 0x69, 0x46, 0x76, 0, 0, 0, 0] 0 (by decide)
example := c125_number (T := Str) (F := F32) (ascii "x1 1\na 1234\n") 0 (by intro b h; revert b; decide)

/-- The hypotheses of both parts of `c125_first_line` hold for concrete files. -/
example : Refused (Embeddings.readFloret (ascii "1 1\na 1234\n") 0 : Res (Embeddings Str FloretSubwordVocab (NdArray F32) F32)) :=
  (c125_first_line (ascii "1 1\na 1234\n") (ascii "1") (ascii "1") (ascii "a 1234\n") 0 (by decide) (by decide)).1 (by decide)
example := (c125_first_line (T := Str) (F := F32) (ascii "1 1 3 3 7 1 1 2\n0 5\n") (ascii "1") (ascii "1")
  (ascii "3 3 7 1 1 2\n0 5\n") 0 (by decide) (by decide)).2 (by decide) (by decide) (by decide)

open Ieee in
/-- No number of core begins with a null character. -/
example (s : Str) : floatText.parse (Char.ofNat 0 :: s) = none := by
  have h1 : isDigitChar (Char.ofNat 0) = false := by decide
  have h2 : lower (Char.ofNat 0) = Char.ofNat 0 := by decide
  have h3 : ∀ (c : Char) (l r : Str), Char.ofNat 0 ≠ c → Char.ofNat 0 :: l ≠ c :: r := fun c l r h h' => h (List.cons.inj h').1
  show parseF32 (Char.ofNat 0 :: s) = none
  simp [parseF32, parseDecimal, parseInfNan, h1, h2, h3]

/-- The theorems about written files, for concrete embeddings. -/
example := c125_finalfusion_partial (T := FtConfig) (F := F32) finalfusionExample 0
example := c125_fasttext_partial (T := Str) (F := F32) exampleFtWritten (by decide +kernel)
example [ConfigToml Str] := c125_floret_partial (T := Str) (F := F32) exampleFloret (by decide +kernel)
example [ConfigToml Str] := c125_dims_partial (T := Str) (T' := Str) (F := F32) dimsExample true _ (.inr rfl)
example [ConfigToml Str] := (c125_text_partial (T := Str) (T' := Str) (F := F32) dimsExample false).2.2 (by
  rintro w c ⟨⟩ ⟨⟩; decide)

end FF
