import Verif.Lemmas.NoPanic
import Verif.Lemmas.ReadAt
import Verif.Lemmas.Explicit

/-!
# When a sequence of reading steps panics
-/

namespace FF

namespace Rd

theorem bind_panic {α β : Type} {p : Rd α} {f : α → Rd β} {d : Bytes} {pos : Nat} :
    (p >>= f) d pos = .panic ↔ p d pos = .panic ∨ ∃ a q, p d pos = .ok (a, q) ∧ f a d q = .panic := by
  rw [bind_apply, Res.bind_eq_panic]
  constructor
  · rintro (h | ⟨⟨a, q⟩, h1, h2⟩)
    · exact .inl h
    · exact .inr ⟨a, q, h1, h2⟩
  · rintro (h | ⟨a, q, h1, h2⟩)
    · exact .inl h
    · exact .inr ⟨(a, q), h1, h2⟩

theorem NoPanic.bind_panic {α β : Type} {p : Rd α} (h : NoPanic p) {f : α → Rd β} {d : Bytes} {pos : Nat} :
    (p >>= f) d pos = .panic ↔ ∃ a q, p d pos = .ok (a, q) ∧ f a d q = .panic := by
  rw [Rd.bind_panic]
  constructor
  · rintro (h' | h')
    · exact absurd h' (h d pos)
    · exact h'
  · exact .inr

section
variable {β : Type} {d : Bytes} {pos : Nat}

theorem readU32_panic {f : Nat → Rd β} :
    (readU32 >>= f) d pos = .panic ↔ ∃ v, u32At d pos = some v ∧ f v d (pos + 4) = .panic := by
  rw [NoPanic.readU32.bind_panic]
  constructor
  · rintro ⟨a, q, h, h'⟩
    obtain ⟨hu, rfl⟩ := readU32_ok h
    exact ⟨a, hu, h'⟩
  · rintro ⟨v, h, h'⟩; exact ⟨v, _, readU32_some h, h'⟩

theorem readU64_panic {f : Nat → Rd β} :
    (readU64 >>= f) d pos = .panic ↔ ∃ v, u64At d pos = some v ∧ f v d (pos + 8) = .panic := by
  rw [NoPanic.readU64.bind_panic]
  constructor
  · rintro ⟨a, q, h, h'⟩
    obtain ⟨hu, rfl⟩ := readU64_ok h
    exact ⟨a, hu, h'⟩
  · rintro ⟨v, h, h'⟩; exact ⟨v, _, readU64_some h, h'⟩

theorem readChunkId_noPanic : NoPanic readChunkId :=
  .bind .readU32 fun _ => .lift (Res.ofOption_ne_panic _ _)

theorem ensureChunkType_noPanic (id : ChunkId) : NoPanic (ensureChunkType id) :=
  .bind readChunkId_noPanic fun _ => by split <;> first | exact .fail _ | exact .pure _

theorem ensureDataType_noPanic (t : Nat) : NoPanic (ensureDataType t) :=
  .bind .readU32 fun _ => by split <;> first | exact .fail _ | exact .pure _

theorem ensureChunkType_panic {id : ChunkId} (hid : id ≠ .header) {f : Unit → Rd β} :
    (ensureChunkType id >>= f) d pos = .panic ↔ u32At d pos = some id.code ∧ f () d (pos + 4) = .panic := by
  rw [(ensureChunkType_noPanic id).bind_panic]
  constructor
  · rintro ⟨a, q, h, h'⟩
    obtain ⟨hu, rfl⟩ := ensureChunkType_ok h
    exact ⟨hu, h'⟩
  · rintro ⟨h, h'⟩; exact ⟨(), _, ensureChunkType_some hid h, h'⟩

theorem ensureDataType_panic {t : Nat} {f : Unit → Rd β} :
    (ensureDataType t >>= f) d pos = .panic ↔ u32At d pos = some t ∧ f () d (pos + 4) = .panic := by
  rw [(ensureDataType_noPanic t).bind_panic]
  constructor
  · rintro ⟨a, q, h, h'⟩
    obtain ⟨hu, rfl⟩ := ensureDataType_ok h
    exact ⟨hu, h'⟩
  · rintro ⟨h, h'⟩; exact ⟨(), _, ensureDataType_some h, h'⟩

theorem position_panic {f : Nat → Rd β} : (position >>= f) d pos = .panic ↔ f pos d pos = .panic := by
  rw [bind_apply]; rfl

theorem skip_panic {n : Nat} {f : Unit → Rd β} : (skip n >>= f) d pos = .panic ↔ f () d (pos + n) = .panic := by
  rw [bind_apply]; rfl

theorem lift_panic {α : Type} {r : Res α} {f : α → Rd β} :
    (lift r >>= f) d pos = .panic ↔ r = .panic ∨ ∃ a, r = .ok a ∧ f a d pos = .panic := by
  cases r <;> simp [bind_apply]

theorem lift_panic' {α : Type} {r : Res α} : lift r d pos = .panic ↔ r = .panic := by
  cases r <;> simp

theorem pure_panic {a : β} : (pure a : Rd β) d pos = .panic ↔ False := by simp

theorem assert_panic {c : Prop} [Decidable c] {f : Unit → Rd β} :
    (lift (Res.assert (decide c)) >>= f) d pos = .panic ↔ ¬ c ∨ f () d pos = .panic := by
  by_cases h : c <;> simp [Res.assert, bind_apply, h]

theorem alloc_panic {size n : Nat} {f : Unit → Rd β} :
    (alloc size n >>= f) d pos = .panic ↔ isizeMax < size * n ∨ f () d pos = .panic := by
  unfold alloc
  rw [assert_panic, Nat.not_le]

/-- The shape is too big for an array of elements of `size` bytes: the product of the lengths that are not zero, or
the number of bytes, exceeds `isize::MAX`. -/
def TooBig (size : Nat) (dims : List Nat) : Prop :=
  isizeMax < (dims.filter (· ≠ 0)).prod ∨ isizeMax < size * dims.prod

theorem allocArray_panic {size : Nat} {dims : List Nat} {f : Unit → Rd β} :
    (allocArray size dims >>= f) d pos = .panic ↔ TooBig size dims ∨ f () d pos = .panic := by
  unfold allocArray TooBig
  rw [assert_panic]
  constructor
  · rintro (h | h)
    · exact .inl (by omega)
    · exact .inr h
  · rintro (h | h)
    · exact .inl (by omega)
    · exact .inr h

/-- `n` bytes can be read at the position. -/
def Present (d : Bytes) (pos n : Nat) : Prop := n = 0 ∨ pos + n ≤ d.length

theorem readExact_panic {n : Nat} {f : Bytes → Rd β} :
    (readExact n >>= f) d pos = .panic ↔ Present d pos n ∧ f ((d.drop pos).take n) d (pos + n) = .panic := by
  rw [(NoPanic.readExact n).bind_panic]
  constructor
  · rintro ⟨a, q, h, h'⟩
    obtain ⟨rfl, rfl, h3⟩ := readExact_ok h
    refine ⟨?_, h'⟩
    by_cases h0 : n = 0
    · exact .inl h0
    · exact .inr (h3 h0)
  · rintro ⟨h, h'⟩
    refine ⟨_, _, ?_, h'⟩
    unfold readExact
    by_cases h0 : n = 0
    · simp [h0]
    · rw [if_neg h0, if_pos (h.resolve_left h0)]

theorem readF32s_panic {n : Nat} {f : List F32 → Rd β} :
    (readF32s n >>= f) d pos = .panic ↔
      Present d pos (4 * n) ∧ f (decodeF32s n ((d.drop pos).take (4 * n))) d (pos + 4 * n) = .panic := by
  unfold readF32s
  rw [bind_assoc, readExact_panic]; rfl

theorem if_fail_panic {c : Prop} [Decidable c] {e : Err} {p : Rd β} :
    (if c then fail e else p) d pos = .panic ↔ ¬ c ∧ p d pos = .panic := by
  by_cases h : c <;> simp [h]

end

end Rd

open Rd

/-! ## Strings -/

/-- Specification: from `pos` on the data contains the strings, each one as its length in bytes (32 bits) and its
UTF-8 encoding; the strings end before position `q`. -/
def StringsAt (d : Bytes) : Nat → List Str → Nat → Prop
  | pos, [], q => q = pos
  | pos, w :: ws, q => u32At d pos = some (utf8 w).length ∧ sliceAt d (pos + 4) (utf8 w).length = some (utf8 w) ∧
      StringsAt d (pos + 4 + (utf8 w).length) ws q

/-- Specification: like `StringsAt`, but each string is followed by a 64-bit number. -/
def NumberedStringsAt (d : Bytes) : Nat → List (Str × Nat) → Nat → Prop
  | pos, [], q => q = pos
  | pos, w :: ws, q => u32At d pos = some (utf8 w.1).length ∧
      sliceAt d (pos + 4) (utf8 w.1).length = some (utf8 w.1) ∧
      u64At d (pos + 4 + (utf8 w.1).length) = some w.2 ∧
      NumberedStringsAt d (pos + 4 + (utf8 w.1).length + 8) ws q

theorem readString_noPanic : NoPanic readString := by
  intro d pos h
  unfold readString at h
  rw [readU32_panic] at h
  obtain ⟨n, hn, h⟩ := h
  have := u32At_lt hn
  rw [alloc_panic] at h
  rcases h with h | h
  · unfold isizeMax at h; omega
  · rw [readExact_panic, lift_panic'] at h
    exact Res.ofOption_ne_panic _ _ h.2

theorem readString_ok_iff {d : Bytes} {pos q : Nat} {w : Str} : readString d pos = .ok (w, q) ↔
    u32At d pos = some (utf8 w).length ∧ sliceAt d (pos + 4) (utf8 w).length = some (utf8 w) ∧
      q = pos + 4 + (utf8 w).length := by
  unfold readString
  constructor
  · intro h
    obtain ⟨n, p1, h1, h⟩ := Rd.bind_ok.mp h
    obtain ⟨hu, rfl⟩ := readU32_ok h1
    obtain ⟨_, p2, h2, h⟩ := Rd.bind_ok.mp h
    obtain ⟨_, rfl⟩ := Rd.assert_ok.mp h2
    obtain ⟨bs, p3, h3, h⟩ := Rd.bind_ok.mp h
    obtain ⟨rfl, rfl, hp⟩ := readExact_ok h3
    obtain ⟨h4, rfl⟩ := Rd.lift_ok.mp h
    have h5 : utf8Decode ((d.drop (pos + 4)).take n) = some w := by
      cases hd : utf8Decode ((d.drop (pos + 4)).take n) with
      | none => rw [hd] at h4; cases h4
      | some s => rw [hd] at h4; cases h4; rfl
    have h6 := utf8_of_utf8Decode h5
    have hle : pos + 4 ≤ d.length := by
      unfold u32At sliceAt at hu
      split at hu
      · assumption
      · cases hu
    have hpn : pos + 4 + n ≤ d.length := by
      by_cases h0 : n = 0
      · omega
      · exact hp h0
    have hlen : (utf8 w).length = n := by
      rw [h6]; simp; omega
    rw [hlen]
    refine ⟨hu, ?_, rfl⟩
    unfold sliceAt
    rw [if_pos hpn, h6]
  · rintro ⟨hu, hs, rfl⟩
    rw [bind_apply, readU32_some hu]
    have hlt := u32At_lt hu
    simp only [Res.ok_bind]
    rw [bind_apply]
    have : alloc 1 (utf8 w).length d (pos + 4) = .ok ((), pos + 4) := by
      unfold alloc
      rw [Rd.assert_ok]
      exact ⟨by simp [isizeMax]; omega, rfl⟩
    rw [this]
    simp only [Res.ok_bind]
    rw [bind_apply]
    by_cases h0 : (utf8 w).length = 0
    · have h0' : utf8 w = [] := List.length_eq_zero_iff.mp h0
      have hw : w = [] := utf8_injective (by rw [h0']; rfl)
      subst hw
      rfl
    · rw [readExact_eq h0, hs]
      simp only [Res.ofOption, Res.map, Res.ok_bind, utf8Decode_utf8]
      rfl

theorem readStrings_ok_iff {d : Bytes} {n pos q : Nat} {ws : List Str} :
    replicateM n readString d pos = .ok (ws, q) ↔ ws.length = n ∧ StringsAt d pos ws q := by
  induction n generalizing pos ws with
  | zero =>
    show Res.ok ([], pos) = _ ↔ _
    cases ws with
    | nil => simp [StringsAt, eq_comm]
    | cons w ws => simp
  | succ n ih =>
    unfold replicateM
    rw [Rd.bind_ok]
    constructor
    · rintro ⟨w, p1, h1, h⟩
      obtain ⟨ws', p2, h2, h⟩ := Rd.bind_ok.mp h
      cases h
      obtain ⟨hu, hs, rfl⟩ := readString_ok_iff.mp h1
      obtain ⟨hl, hr⟩ := ih.mp h2
      exact ⟨by simp [hl], hu, hs, hr⟩
    · cases ws with
      | nil => simp
      | cons w ws =>
        rintro ⟨hl, hu, hs, hr⟩
        refine ⟨w, _, readString_ok_iff.mpr ⟨hu, hs, rfl⟩, ?_⟩
        rw [Rd.bind_ok]
        exact ⟨ws, q, ih.mpr ⟨by simpa using hl, hr⟩, rfl⟩

theorem readVocabItems_panic {β : Type} {d : Bytes} {pos n : Nat} {f : List Str → Rd β} :
    (readVocabItems n >>= f) d pos = .panic ↔ isizeMax < 24 * n ∨
      ∃ ws q, ws.length = n ∧ StringsAt d pos ws q ∧ f ws d q = .panic := by
  unfold readVocabItems
  rw [bind_assoc, alloc_panic, (readString_noPanic.replicateM n).bind_panic]
  constructor
  · rintro (h | ⟨ws, q, h, h'⟩)
    · exact .inl h
    · obtain ⟨h1, h2⟩ := readStrings_ok_iff.mp h
      exact .inr ⟨ws, q, h1, h2, h'⟩
  · rintro (h | ⟨ws, q, h1, h2, h'⟩)
    · exact .inl h
    · exact .inr ⟨ws, q, readStrings_ok_iff.mpr ⟨h1, h2⟩, h'⟩

theorem readNgram_eq : readNgram = (do
    let s ← readString
    let i ← readU64
    return (s, i)) := by
  unfold readNgram readString
  simp only [bind_assoc]

theorem readNgram_noPanic : NoPanic readNgram := by
  rw [readNgram_eq]
  exact .bind readString_noPanic fun _ => .bind .readU64 fun _ => .pure _

theorem readNumbered_ok_iff {d : Bytes} {n pos q : Nat} {ws : List (Str × Nat)} :
    replicateM n readNgram d pos = .ok (ws, q) ↔ ws.length = n ∧ NumberedStringsAt d pos ws q := by
  induction n generalizing pos ws with
  | zero =>
    show Res.ok ([], pos) = _ ↔ _
    cases ws with
    | nil => simp [NumberedStringsAt, eq_comm]
    | cons w ws => simp
  | succ n ih =>
    unfold replicateM
    rw [Rd.bind_ok]
    constructor
    · rintro ⟨w, p1, h1, h⟩
      obtain ⟨ws', p2, h2, h⟩ := Rd.bind_ok.mp h
      cases h
      rw [readNgram_eq] at h1
      obtain ⟨s, p3, h3, h1⟩ := Rd.bind_ok.mp h1
      obtain ⟨i, p4, h4, h1⟩ := Rd.bind_ok.mp h1
      cases h1
      obtain ⟨hu, hs, rfl⟩ := readString_ok_iff.mp h3
      obtain ⟨hu', rfl⟩ := readU64_ok h4
      obtain ⟨hl, hr⟩ := ih.mp h2
      exact ⟨by simp [hl], hu, hs, hu', hr⟩
    · cases ws with
      | nil => simp
      | cons w ws =>
        rintro ⟨hl, hu, hs, hu', hr⟩
        refine ⟨w, pos + 4 + (utf8 w.1).length + 8, ?_, ?_⟩
        · rw [readNgram_eq, Rd.bind_ok]
          refine ⟨w.1, _, readString_ok_iff.mpr ⟨hu, hs, rfl⟩, ?_⟩
          rw [Rd.bind_ok]
          exact ⟨w.2, _, readU64_some hu', rfl⟩
        · rw [Rd.bind_ok]
          exact ⟨ws, q, ih.mpr ⟨by simpa using hl, hr⟩, rfl⟩

theorem readNgrams_panic {β : Type} {d : Bytes} {pos n : Nat} {f : List (Str × Nat) → Rd β} :
    (readNgrams n >>= f) d pos = .panic ↔ isizeMax < 32 * n ∨
      ∃ ws q, ws.length = n ∧ NumberedStringsAt d pos ws q ∧ f ws d q = .panic := by
  unfold readNgrams
  rw [bind_assoc, alloc_panic, (readNgram_noPanic.replicateM n).bind_panic]
  constructor
  · rintro (h | ⟨ws, q, h, h'⟩)
    · exact .inl h
    · obtain ⟨h1, h2⟩ := readNumbered_ok_iff.mp h
      exact .inr ⟨ws, q, h1, h2, h'⟩
  · rintro (h | ⟨ws, q, h1, h2, h'⟩)
    · exact .inl h
    · exact .inr ⟨ws, q, readNumbered_ok_iff.mpr ⟨h1, h2⟩, h'⟩

end FF
