import Verif.Props.Text
import Verif.Props.Similarity

/-!
# Parts of std that the readers rely on, specified independently (C55, C54, C41), and plain analogies (C44, C45)
-/

namespace FF

open Rd

/-! ## Lossy UTF-8 decoding -/

/-- The code point of a character. -/
theorem char_range (c : Char) : c.val.toNat < 0xd800 ∨ 0xdfff < c.val.toNat ∧ c.val.toNat < 0x110000 := c.valid

theorem validSecond_iff (a b : UInt8) : validSecond a b = true ↔
    (a.toNat = 0xE0 ∧ 0xA0 ≤ b.toNat ∧ b.toNat ≤ 0xBF) ∨
    (0xE1 ≤ a.toNat ∧ a.toNat ≤ 0xEC ∧ 0x80 ≤ b.toNat ∧ b.toNat ≤ 0xBF) ∨
    (a.toNat = 0xED ∧ 0x80 ≤ b.toNat ∧ b.toNat ≤ 0x9F) ∨
    (0xEE ≤ a.toNat ∧ a.toNat ≤ 0xEF ∧ 0x80 ≤ b.toNat ∧ b.toNat ≤ 0xBF) ∨
    (a.toNat = 0xF0 ∧ 0x90 ≤ b.toNat ∧ b.toNat ≤ 0xBF) ∨
    (0xF1 ≤ a.toNat ∧ a.toNat ≤ 0xF3 ∧ 0x80 ≤ b.toNat ∧ b.toNat ≤ 0xBF) ∨
    (a.toNat = 0xF4 ∧ 0x80 ≤ b.toNat ∧ b.toNat ≤ 0x8F) := by
  simp only [validSecond, isCont, Bool.or_eq_true, Bool.and_eq_true, beq_iff_eq, decide_eq_true_eq,
    UInt8.le_iff_toNat_le, ← UInt8.toNat_inj]
  simp [and_assoc, or_assoc]

theorem isCont_iff (b : UInt8) : isCont b = true ↔ 0x80 ≤ b.toNat ∧ b.toNat ≤ 0xBF := by
  simp [isCont, UInt8.le_iff_toNat_le]

/-- The encoding of a character in four cases. -/
theorem enc_cases (c : Char) :
    (c.val.toNat ≤ 0x7f ∧ String.utf8EncodeChar c = [UInt8.ofNat c.val.toNat]) ∨
    (0x7f < c.val.toNat ∧ c.val.toNat ≤ 0x7ff ∧ String.utf8EncodeChar c =
      [UInt8.ofNat (c.val.toNat / 64 % 0x20 + 0xc0), UInt8.ofNat (c.val.toNat % 0x40 + 0x80)]) ∨
    (0x7ff < c.val.toNat ∧ c.val.toNat ≤ 0xffff ∧ String.utf8EncodeChar c =
      [UInt8.ofNat (c.val.toNat / 4096 % 0x10 + 0xe0), UInt8.ofNat (c.val.toNat / 64 % 0x40 + 0x80),
        UInt8.ofNat (c.val.toNat % 0x40 + 0x80)]) ∨
    (0xffff < c.val.toNat ∧ String.utf8EncodeChar c =
      [UInt8.ofNat (c.val.toNat / 262144 % 0x08 + 0xf0), UInt8.ofNat (c.val.toNat / 4096 % 0x40 + 0x80),
        UInt8.ofNat (c.val.toNat / 64 % 0x40 + 0x80), UInt8.ofNat (c.val.toNat % 0x40 + 0x80)]) := by
  unfold String.utf8EncodeChar
  dsimp only
  split
  · next h => exact .inl ⟨h, rfl⟩
  · split
    · next h1 h2 => exact .inr (.inl ⟨by omega, h2, rfl⟩)
    · split
      · next h1 h2 h3 => exact .inr (.inr (.inl ⟨by omega, h3, rfl⟩))
      · next h1 h2 h3 => exact .inr (.inr (.inr ⟨by omega, rfl⟩))

theorem eq_ofNat_iff (a : UInt8) (n : Nat) (h : n < 256) : a = UInt8.ofNat n ↔ a.toNat = n := by
  rw [← UInt8.toNat_inj, UInt8.toNat_ofNat', Nat.mod_eq_of_lt h]

theorem charOf_toNat (n : Nat) (h : n < 0xd800 ∨ 0xdfff < n ∧ n < 0x110000) : ∃ c : Char, c.val.toNat = n := by
  refine ⟨⟨UInt32.ofNat n, ?_⟩, ?_⟩
  · show Nat.isValidChar (UInt32.ofNat n).toNat
    rw [UInt32.toNat_ofNat', Nat.mod_eq_of_lt (by omega)]
    exact h
  · rw [UInt32.toNat_ofNat', Nat.mod_eq_of_lt (by omega)]

/-- Which two bytes start the encoding of some character. -/
theorem prefix_two (a b : UInt8) : (∃ ch, [a, b] <+: String.utf8EncodeChar ch) ↔
    validSecond a b = true ∨ 0xC2 ≤ a.toNat ∧ a.toNat ≤ 0xDF ∧ isCont b = true := by
  rw [validSecond_iff, isCont_iff]
  constructor
  · rintro ⟨ch, h⟩
    have hr := char_range ch
    rcases enc_cases ch with ⟨h1, e⟩ | ⟨h1, h2, e⟩ | ⟨h1, h2, e⟩ | ⟨h1, e⟩
    · rw [e] at h; simp at h
    all_goals
      rw [e] at h
      simp only [List.cons_prefix_cons, List.nil_prefix, and_true] at h
      obtain ⟨ha, hb⟩ := h
      rw [eq_ofNat_iff _ _ (by omega)] at ha hb
      omega
  · have hb8 := b.toNat_lt
    intro h
    by_cases h2 : a.toNat ≤ 0xDF
    · obtain ⟨c, hc⟩ := charOf_toNat ((a.toNat - 0xC0) * 64 + (b.toNat - 0x80)) (by omega)
      refine ⟨c, ?_⟩
      rcases enc_cases c with ⟨h1, e⟩ | ⟨h1, h2, e⟩ | ⟨h1, h2, e⟩ | ⟨h1, e⟩ <;> rw [hc] at * <;> try omega
      rw [e]
      simp only [List.cons_prefix_cons, List.nil_prefix, and_true]
      rw [eq_ofNat_iff _ _ (by omega), eq_ofNat_iff _ _ (by omega)]
      omega
    · by_cases h3 : a.toNat ≤ 0xEF
      · obtain ⟨c, hc⟩ := charOf_toNat ((a.toNat - 0xE0) * 4096 + (b.toNat - 0x80) * 64) (by omega)
        refine ⟨c, ?_⟩
        rcases enc_cases c with ⟨h1, e⟩ | ⟨h1, h2, e⟩ | ⟨h1, h2, e⟩ | ⟨h1, e⟩ <;> rw [hc] at * <;> try omega
        rw [e]
        simp only [List.cons_prefix_cons, List.nil_prefix, and_true]
        rw [eq_ofNat_iff _ _ (by omega), eq_ofNat_iff _ _ (by omega)]
        omega
      · obtain ⟨c, hc⟩ := charOf_toNat ((a.toNat - 0xF0) * 262144 + (b.toNat - 0x80) * 4096) (by omega)
        refine ⟨c, ?_⟩
        rcases enc_cases c with ⟨h1, e⟩ | ⟨h1, h2, e⟩ | ⟨h1, h2, e⟩ | ⟨h1, e⟩ <;> rw [hc] at * <;> try omega
        rw [e]
        simp only [List.cons_prefix_cons, List.nil_prefix, and_true]
        rw [eq_ofNat_iff _ _ (by omega), eq_ofNat_iff _ _ (by omega)]
        omega

/-- Which three bytes start the encoding of some character; up to `0xEF` they are the whole encoding. -/
theorem prefix_three (a b c : UInt8) : (∃ ch, [a, b, c] <+: String.utf8EncodeChar ch) ↔
    validSecond a b = true ∧ isCont c = true := by
  rw [validSecond_iff, isCont_iff]
  constructor
  · rintro ⟨ch, h⟩
    have hr := char_range ch
    rcases enc_cases ch with ⟨h1, e⟩ | ⟨h1, h2, e⟩ | ⟨h1, h2, e⟩ | ⟨h1, e⟩
    · rw [e] at h; simp at h
    · rw [e] at h; simp at h
    all_goals
      rw [e] at h
      simp only [List.cons_prefix_cons, List.nil_prefix, and_true] at h
      obtain ⟨ha, hb, hc⟩ := h
      rw [eq_ofNat_iff _ _ (by omega)] at ha hb hc
      omega
  · intro h
    by_cases h3 : a.toNat ≤ 0xEF
    · obtain ⟨ch, hch⟩ := charOf_toNat ((a.toNat - 0xE0) * 4096 + (b.toNat - 0x80) * 64 + (c.toNat - 0x80)) (by omega)
      refine ⟨ch, ?_⟩
      rcases enc_cases ch with ⟨h1, e⟩ | ⟨h1, h2, e⟩ | ⟨h1, h2, e⟩ | ⟨h1, e⟩ <;> rw [hch] at * <;> try omega
      rw [e]
      simp only [List.cons_prefix_cons, List.nil_prefix, and_true]
      rw [eq_ofNat_iff _ _ (by omega), eq_ofNat_iff _ _ (by omega), eq_ofNat_iff _ _ (by omega)]
      omega
    · obtain ⟨ch, hch⟩ := charOf_toNat
        ((a.toNat - 0xF0) * 262144 + (b.toNat - 0x80) * 4096 + (c.toNat - 0x80) * 64) (by omega)
      refine ⟨ch, ?_⟩
      rcases enc_cases ch with ⟨h1, e⟩ | ⟨h1, h2, e⟩ | ⟨h1, h2, e⟩ | ⟨h1, e⟩ <;> rw [hch] at * <;> try omega
      rw [e]
      simp only [List.cons_prefix_cons, List.nil_prefix, and_true]
      rw [eq_ofNat_iff _ _ (by omega), eq_ofNat_iff _ _ (by omega), eq_ofNat_iff _ _ (by omega)]
      omega


/-- Specification of lossy decoding: characters are decoded; where the data does not start with the encoding of a
character, the longest beginning of an encoding (at least one byte) is replaced by `U+FFFD`. -/
inductive Lossy : Bytes → Str → Prop
  | nil : Lossy [] []
  | char (c : Char) {bs : Bytes} {s : Str} : Lossy bs s → Lossy (String.utf8EncodeChar c ++ bs) (c :: s)
  | bad {seg bs : Bytes} {s : Str} : (∀ c, ¬ String.utf8EncodeChar c <+: seg ++ bs) → seg ≠ [] →
      (seg.length = 1 ∨ ∃ c, seg <+: String.utf8EncodeChar c) →
      (∀ k c, seg.length < k → k ≤ (seg ++ bs).length → ¬ (seg ++ bs).take k <+: String.utf8EncodeChar c) →
      Lossy bs s → Lossy (seg ++ bs) (Char.ofNat 0xFFFD :: s)

theorem utf8Head_none {bs : Bytes} : utf8Head bs = none ↔ ∀ c, ¬ String.utf8EncodeChar c <+: bs := by
  constructor
  · rintro h c ⟨t, rfl⟩
    rw [utf8Head_append] at h; cases h
  · intro h
    cases hh : utf8Head bs with
    | none => rfl
    | some c => exact absurd ⟨_, (utf8Head_some hh).symm⟩ (h c)

theorem enc_length (c : Char) : 1 ≤ (String.utf8EncodeChar c).length ∧ (String.utf8EncodeChar c).length ≤ 4 := by
  rcases enc_cases c with ⟨_, e⟩ | ⟨_, _, e⟩ | ⟨_, _, e⟩ | ⟨_, e⟩ <;> rw [e] <;> simp

/-- A complete encoding is excluded at the start of data without a first character. -/
theorem not_complete {bs : Bytes} (hn : ∀ c, ¬ String.utf8EncodeChar c <+: bs) {k : Nat} {c : Char}
    (h : bs.take k <+: String.utf8EncodeChar c) (hl : (String.utf8EncodeChar c).length ≤ (bs.take k).length) : False := by
  have := h.eq_of_length_le hl
  exact hn c (this ▸ List.take_prefix k bs)

theorem invalidLen_spec {bs : Bytes} (h0 : bs ≠ []) (hn : ∀ c, ¬ String.utf8EncodeChar c <+: bs) :
    1 ≤ invalidLen bs ∧ invalidLen bs ≤ bs.length ∧
    (invalidLen bs = 1 ∨ ∃ c, bs.take (invalidLen bs) <+: String.utf8EncodeChar c) ∧
    ∀ k c, invalidLen bs < k → k ≤ bs.length → ¬ bs.take k <+: String.utf8EncodeChar c := by
  have two : ∀ a b rest ch, bs = a :: b :: rest → [a, b] <+: String.utf8EncodeChar ch → validSecond a b = true := by
    intro a b rest ch hbs h
    rcases (prefix_two a b).mp ⟨ch, h⟩ with h2 | ⟨_, h3, _⟩
    · exact h2
    · exfalso
      have hr := char_range ch
      rcases enc_cases ch with ⟨h1, e⟩ | ⟨h1, h2, e⟩ | ⟨h1, h2, e⟩ | ⟨h1, e⟩
      · rw [e] at h; simp at h
      · refine not_complete (k := 2) hn (c := ch) (by rw [hbs]; exact h) (by rw [e, hbs]; simp)
      all_goals
        rw [e] at h
        simp only [List.cons_prefix_cons, List.nil_prefix, and_true] at h
        obtain ⟨ha, hb⟩ := h
        rw [eq_ofNat_iff _ _ (by omega)] at ha
        omega
  match bs with
  | [] => exact absurd rfl h0
  | [a] =>
    refine ⟨Nat.le_refl 1, Nat.le_refl 1, .inl rfl, fun k c h1 h2 => ?_⟩
    simp [invalidLen] at h1 h2
    omega
  | [a, b] =>
    simp only [invalidLen]
    split
    · next hv =>
      refine ⟨by omega, by simp, .inr ?_, fun k c h1 h2 => by simp at h2; omega⟩
      exact (prefix_two a b).mpr (.inl hv)
    · next hv =>
      refine ⟨by omega, by simp, .inl rfl, fun k c h1 h2 h => ?_⟩
      simp at h2
      have : k = 2 := by omega
      subst this
      exact hv (two a b [] c rfl h)
  | a :: b :: c :: rest =>
    have three : ∀ ch, [a, b, c] <+: String.utf8EncodeChar ch →
        validSecond a b = true ∧ 0xF0 ≤ a.toNat ∧ isCont c = true := by
      intro ch h
      obtain ⟨h2, h3⟩ := (prefix_three a b c).mp ⟨ch, h⟩
      refine ⟨h2, ?_, h3⟩
      have hr := char_range ch
      rcases enc_cases ch with ⟨h1, e⟩ | ⟨h1, h2, e⟩ | ⟨h1, h2, e⟩ | ⟨h1, e⟩
      · rw [e] at h; simp at h
      · rw [e] at h; simp at h
      · exact (not_complete (k := 3) hn (c := ch) h (by rw [e]; simp)).elim
      · rw [e] at h
        simp only [List.cons_prefix_cons, List.nil_prefix, and_true] at h
        obtain ⟨ha, _⟩ := h
        rw [eq_ofNat_iff _ _ (by omega)] at ha
        omega
    have four : ∀ k ch, 4 ≤ k → k ≤ (a :: b :: c :: rest).length →
        ¬ (a :: b :: c :: rest).take k <+: String.utf8EncodeChar ch := by
      intro k ch h1 h2 h
      refine not_complete hn h ?_
      have := (enc_length ch).2
      rw [List.length_take]
      omega
    have big : ∀ k ch, 3 ≤ k → k ≤ (a :: b :: c :: rest).length →
        (a :: b :: c :: rest).take k <+: String.utf8EncodeChar ch → [a, b, c] <+: String.utf8EncodeChar ch := by
      intro k ch h1 h2 h
      refine List.IsPrefix.trans ?_ h
      have := List.take_prefix_take_left (l := a :: b :: c :: rest) (i := 3) (j := k) h1
      simpa using this
    simp only [invalidLen]
    split
    · next hv =>
      split
      · next hc =>
        simp only [Bool.and_eq_true, decide_eq_true_eq] at hc
        refine ⟨by omega, by simp, .inr ?_, fun k ch h1 h2 h => four k ch (by omega) h2 h⟩
        exact (prefix_three a b c).mpr ⟨hv, hc.2⟩
      · next hc =>
        refine ⟨by omega, by simp, .inr ?_, fun k ch h1 h2 h => hc ?_⟩
        · exact (prefix_two a b).mpr (.inl hv)
        · obtain ⟨_, h4, h5⟩ := three ch (big k ch (by omega) h2 h)
          simp only [Bool.and_eq_true, decide_eq_true_eq, UInt8.le_iff_toNat_le]
          exact ⟨h4, h5⟩
    · next hv =>
      refine ⟨by omega, by simp, .inl rfl, fun k ch h1 h2 h => hv ?_⟩
      refine two a b (c :: rest) ch rfl (List.IsPrefix.trans ?_ h)
      have := List.take_prefix_take_left (l := a :: b :: c :: rest) (i := 2) (j := k) (by omega)
      simpa using this

theorem utf8LossyF_fuel : ∀ (n m : Nat) (bs : Bytes), bs.length ≤ n → bs.length ≤ m →
    utf8LossyF n bs = utf8LossyF m bs := by
  intro n
  induction n with
  | zero =>
    intro m bs h _
    have : bs = [] := List.length_eq_zero_iff.mp (by omega)
    subst this
    cases m <;> rfl
  | succ n ih =>
    intro m bs hn hm
    cases bs with
    | nil => cases m <;> rfl
    | cons b bs =>
      cases m with
      | zero => simp at hm
      | succ m =>
        simp only [List.length_cons] at hn hm
        rw [utf8LossyF, utf8LossyF]
        · cases hh : utf8Head (b :: bs) with
          | some c =>
            dsimp only
            have := Char.utf8Size_pos c
            rw [ih m _ (by simp; omega) (by simp; omega)]
          | none =>
            dsimp only
            have := (invalidLen_spec (bs := b :: bs) (by simp) (utf8Head_none.mp hh)).1
            rw [ih m _ (by simp; omega) (by simp; omega)]
        all_goals simp

theorem utf8Lossy_char (c : Char) (bs : Bytes) : utf8Lossy (String.utf8EncodeChar c ++ bs) = c :: utf8Lossy bs := by
  have hl := (enc_length c).1
  have hh := utf8Head_append c bs
  unfold utf8Lossy
  cases he : String.utf8EncodeChar c ++ bs with
  | nil => simp [(List.append_eq_nil_iff.mp he).1] at hl
  | cons x xs =>
    rw [List.length_cons, utf8LossyF]
    · rw [← he, hh]
      dsimp only
      rw [show (String.utf8EncodeChar c ++ bs).drop c.utf8Size = bs by
        rw [← String.length_utf8EncodeChar, List.drop_left]]
      have := congrArg List.length he
      simp only [List.length_append, List.length_cons] at this
      rw [utf8LossyF_fuel _ bs.length bs (by omega) (Nat.le_refl _)]
    · simp

theorem utf8Lossy_bad {bs : Bytes} (h0 : bs ≠ []) (hn : ∀ c, ¬ String.utf8EncodeChar c <+: bs) :
    utf8Lossy bs = Char.ofNat 0xFFFD :: utf8Lossy (bs.drop (invalidLen bs)) := by
  have hs := (invalidLen_spec h0 hn).1
  unfold utf8Lossy
  cases bs with
  | nil => exact absurd rfl h0
  | cons x xs =>
    rw [List.length_cons, utf8LossyF]
    · rw [utf8Head_none.mpr hn]
      dsimp only
      rw [utf8LossyF_fuel _ ((x :: xs).drop (invalidLen (x :: xs))).length _ (by simp; omega) (Nat.le_refl _)]
      rfl
    · simp

/-- C55, invalid data: the lossy readers decode exactly as specified by `Lossy`. -/
theorem c55_lossy (bs : Bytes) (s : Str) : decodeToken true bs = .ok s ↔ Lossy bs s := by
  rw [show decodeToken true bs = .ok (utf8Lossy bs) from rfl, Res.ok.injEq]
  constructor
  · rintro rfl
    generalize hl : bs.length = n
    induction n using Nat.strongRecOn generalizing bs with
    | ind n ih =>
      cases hh : utf8Head bs with
      | some c =>
        have := utf8Head_some hh
        rw [this, utf8Lossy_char]
        have hc := (enc_length c).1
        rw [String.length_utf8EncodeChar] at hc
        have hb : 1 ≤ bs.length := by
          rw [this]; simp; omega
        exact .char c (ih _ (by simp; omega) _ rfl)
      | none =>
        by_cases h0 : bs = []
        · subst h0; exact .nil
        · have hn := utf8Head_none.mp hh
          obtain ⟨a1, a2, a3, a4⟩ := invalidLen_spec h0 hn
          rw [utf8Lossy_bad h0 hn]
          have hsplit : bs = bs.take (invalidLen bs) ++ bs.drop (invalidLen bs) := (List.take_append_drop _ _).symm
          have hlen : (bs.take (invalidLen bs)).length = invalidLen bs := by simp; omega
          have hb := Lossy.bad (seg := bs.take (invalidLen bs)) (bs := bs.drop (invalidLen bs))
            (s := utf8Lossy (bs.drop (invalidLen bs))) (by rw [← hsplit]; exact hn)
            (by intro h; rw [h] at hlen; simp at hlen; omega)
            (by rw [hlen]; exact a3) (by rw [hlen, ← hsplit]; exact a4)
            (ih _ (by simp; omega) _ rfl)
          rwa [← hsplit] at hb
  · intro h
    induction h with
    | nil => rfl
    | char c _ ih => rw [utf8Lossy_char, ih]
    | @bad seg rest s h1 h2 h3 h4 _ ih =>
      have h0 : seg ++ rest ≠ [] := by simp [h2]
      obtain ⟨a1, a2, a3, a4⟩ := invalidLen_spec h0 h1
      have hpos : 1 ≤ seg.length := List.length_pos_iff.mpr h2
      have hk : invalidLen (seg ++ rest) = seg.length := by
        rcases Nat.lt_trichotomy (invalidLen (seg ++ rest)) seg.length with h | h | h
        · exfalso
          rcases h3 with h3 | ⟨c, hc⟩
          · omega
          · exact a4 seg.length c h (by simp) (by simpa using hc)
        · exact h
        · exfalso
          rcases a3 with a3 | ⟨c, hc⟩
          · omega
          · exact h4 _ c h a2 hc
      rw [utf8Lossy_bad h0 h1, hk, List.drop_left, ih]

example : Lossy [0x61, 0xF0, 0x9F, 0x98, 0x62, 0xE0, 0x80] ['a', '�', 'b', '�', '�'] :=
  (c55_lossy _ _).mp (by decide +kernel)


/-! ## Numbers in text -/

/-- Specification: the decimal value of the digits `ds`. -/
inductive Decimal : Str → Nat → Prop
  | one (d : Nat) : d < 10 → Decimal [Char.ofNat (48 + d)] d
  | snoc (d : Nat) {s : Str} {n : Nat} : Decimal s n → d < 10 → Decimal (s ++ [Char.ofNat (48 + d)]) (10 * n + d)

theorem digit_iff (c : Char) : isDigitChar c = true ↔ ∃ d, d < 10 ∧ c = Char.ofNat (48 + d) ∧ c.toNat - 48 = d := by
  unfold isDigitChar
  simp only [Bool.and_eq_true, decide_eq_true_eq]
  constructor
  · rintro ⟨h1, h2⟩
    refine ⟨c.toNat - 48, by omega, ?_, rfl⟩
    rw [show 48 + (c.toNat - 48) = c.toNat by omega, Char.ofNat_toNat]
  · rintro ⟨d, hd, h1, h2⟩
    have : ∀ d < 10, (Char.ofNat (48 + d)).toNat = 48 + d := by decide
    rw [h1, this d hd]
    omega

theorem Decimal.digits {s : Str} {n : Nat} (h : Decimal s n) :
    s ≠ [] ∧ s.all isDigitChar = true ∧ digitsVal s = n := by
  have hd : ∀ d < 10, (Char.ofNat (48 + d)).toNat = 48 + d := by decide
  have hd' : ∀ d < 10, isDigitChar (Char.ofNat (48 + d)) = true := by decide
  induction h with
  | one d h => simp [hd' d h, digitsVal, hd d h]
  | snoc d _ h ih =>
    obtain ⟨h1, h2, h3⟩ := ih
    refine ⟨by simp, by simp only [List.all_append, h2, List.all_cons, hd' d h, List.all_nil, Bool.and_self], ?_⟩
    unfold digitsVal at h3 ⊢
    rw [List.foldl_append, h3]
    simp [hd d h]
    omega

theorem Decimal.of_digits (n : Nat) : ∀ (s : Str), s.length = n → s ≠ [] → s.all isDigitChar = true →
    Decimal s (digitsVal s) := by
  induction n with
  | zero => intro s h h0; exact absurd (List.length_eq_zero_iff.mp h) h0
  | succ n ih =>
    intro s hl h0 ha
    obtain ⟨t, c, rfl⟩ : ∃ t c, s = t ++ [c] := ⟨_, _, (List.dropLast_concat_getLast h0).symm⟩
    have hl' : t.length = n := by simpa using hl
    simp only [List.all_append, List.all_cons, List.all_nil, Bool.and_true, Bool.and_eq_true] at ha
    obtain ⟨d, hd, hc, hv⟩ := (digit_iff c).mp ha.2
    have hval : digitsVal (t ++ [c]) = 10 * digitsVal t + d := by
      unfold digitsVal
      rw [List.foldl_append]
      simp [hv]
      omega
    rw [hval, hc]
    cases t with
    | nil =>
      have : Decimal [Char.ofNat (48 + d)] d := .one d hd
      simpa [digitsVal] using this
    | cons x t => exact .snoc d (ih _ hl' (by simp) ha.1) hd

/-- C54: numbers in headers are read exactly as their decimal value, an optional plus sign is allowed, and everything
else (also numbers of more than 64 bits) is an error. -/
theorem c54_decimal (s : Str) (n : Nat) :
    parseUsize s = some n ↔ ∃ ds, (s = ds ∨ s = '+' :: ds) ∧ Decimal ds n ∧ n < 2 ^ 64 := by
  have hstrip : ∀ ds : Str, ds ≠ [] → ds.all isDigitChar = true → stripPlus ds = ds := by
    intro ds h0 ha
    cases ds with
    | nil => rfl
    | cons c t =>
      have : c ≠ '+' := by
        rintro rfl
        simp [isDigitChar] at ha
      simp [stripPlus, this]
  have hmax : usizeMax = 2 ^ 64 - 1 := rfl
  unfold parseUsize
  dsimp only
  constructor
  · intro h
    split at h
    · cases h
    · next hc =>
      rw [not_or] at hc
      split at h
      · next hle =>
        cases h
        refine ⟨stripPlus s, ?_, Decimal.of_digits _ _ rfl hc.1 (by simpa using hc.2), by omega⟩
        cases s with
        | nil => exact .inl rfl
        | cons c t =>
          by_cases h : c = '+'
          · right; simp [stripPlus, h]
          · left; simp [stripPlus, h]
      · cases h
  · rintro ⟨ds, hs, hd, hn⟩
    obtain ⟨h0, ha, hv⟩ := hd.digits
    have : stripPlus s = ds := by
      rcases hs with rfl | rfl
      · exact hstrip _ h0 ha
      · simp [stripPlus]
    rw [this, hv, if_neg (by simp [h0, ha]), if_pos (by omega)]

example : ∃ n, parseUsize "+0042".toList = some n ∧ n = 42 := ⟨42, by decide, rfl⟩
example : Decimal "42".toList 42 := .snoc (s := ['4']) 2 (.one 4 (by omega)) (by omega)

/-! ## Comparing single precision numbers -/

/-- Specification: the value of a single precision number that is not NaN, times `2 ^ 149`. Infinity counts as
`2 ^ 128`, the value its bit pattern would have with one more exponent. -/
def f32Scaled (x : F32) : Int :=
  let e := x.toNat / 2 ^ 23 % 2 ^ 8
  let f := x.toNat % 2 ^ 23
  let m : Nat := if e = 0 then f else (2 ^ 23 + f) * 2 ^ (e - 1)
  if x.toNat / 2 ^ 31 = 0 then m else -m

/-- Specification: all exponent bits and at least one fraction bit are set. -/
def F32IsNan (x : F32) : Prop := x.toNat / 2 ^ 23 % 2 ^ 8 = 255 ∧ x.toNat % 2 ^ 23 ≠ 0

def f32MagVal (n : Nat) : Nat :=
  if n / 2 ^ 23 = 0 then n % 2 ^ 23 else (2 ^ 23 + n % 2 ^ 23) * 2 ^ (n / 2 ^ 23 - 1)

theorem f32MagVal_lt {n m : Nat} (h : n < m) : f32MagVal n < f32MagVal m := by
  unfold f32MagVal
  have hn := Nat.div_add_mod n (2 ^ 23)
  have hm := Nat.div_add_mod m (2 ^ 23)
  have hfn := Nat.mod_lt n (show 0 < 2 ^ 23 by decide)
  have hfm := Nat.mod_lt m (show 0 < 2 ^ 23 by decide)
  have hle : n / 2 ^ 23 ≤ m / 2 ^ 23 := Nat.div_le_div_right (Nat.le_of_lt h)
  generalize n / 2 ^ 23 = a at *
  generalize m / 2 ^ 23 = b at *
  generalize n % 2 ^ 23 = f at *
  generalize m % 2 ^ 23 = g at *
  by_cases hab : a = b
  · subst hab
    have : f < g := by omega
    split
    · exact this
    · exact Nat.mul_lt_mul_of_pos_right (by omega) (Nat.two_pow_pos _)
  · have hab' : a < b := by omega
    rw [if_neg (show ¬ b = 0 by omega)]
    have hb : 2 ^ 23 * 2 ^ (b - 1) ≤ (2 ^ 23 + g) * 2 ^ (b - 1) := Nat.mul_le_mul_right _ (by omega)
    refine Nat.lt_of_lt_of_le ?_ hb
    split
    · have : 2 ^ 23 * 1 ≤ 2 ^ 23 * 2 ^ (b - 1) := Nat.mul_le_mul_left _ (Nat.two_pow_pos _)
      omega
    · next ha =>
      have h1 : (2 ^ 23 + f) * 2 ^ (a - 1) < (2 ^ 23 * 2) * 2 ^ (a - 1) :=
        Nat.mul_lt_mul_of_pos_right (by omega) (Nat.two_pow_pos _)
      have h2 : (2 ^ 23 * 2) * 2 ^ (a - 1) = 2 ^ 23 * 2 ^ a := by
        rw [Nat.mul_assoc, ← Nat.pow_succ', show (a - 1).succ = a by omega]
      have h3 : 2 ^ 23 * 2 ^ a ≤ 2 ^ 23 * 2 ^ (b - 1) :=
        Nat.mul_le_mul_left _ (Nat.pow_le_pow_right (by decide) (by omega))
      omega

theorem f32MagVal_lt_iff {n m : Nat} : f32MagVal n < f32MagVal m ↔ n < m := by
  constructor
  · intro h
    rcases Nat.lt_trichotomy n m with h1 | h1 | h1
    · exact h1
    · subst h1; exact absurd h (Nat.lt_irrefl _)
    · exact absurd (f32MagVal_lt h1) (by omega)
  · exact f32MagVal_lt

theorem f32Scaled_eq (x : F32) :
    f32Scaled x = if x.toNat < 2 ^ 31 then (f32MagVal (f32Mag x) : Int) else - (f32MagVal (f32Mag x) : Int) := by
  have hx := x.toNat_lt
  have h1 : f32Mag x / 2 ^ 23 = x.toNat / 2 ^ 23 % 2 ^ 8 := by unfold f32Mag; omega
  have h2 : f32Mag x % 2 ^ 23 = x.toNat % 2 ^ 23 := by unfold f32Mag; omega
  unfold f32Scaled f32MagVal
  rw [h1, h2]
  dsimp only
  by_cases h : x.toNat < 2 ^ 31
  · rw [if_pos (by omega), if_pos h]
  · rw [if_neg (by omega), if_neg h]

/-- C41: similarities that are not NaN are compared by value, zeros of both signs are equal, and comparisons with NaN
are false. -/
theorem c41_compare (x y : F32) :
    (ScalarOrd.isNan x = true ↔ F32IsNan x) ∧
    (ScalarOrd.lt x y = true ↔ ¬ F32IsNan x ∧ ¬ F32IsNan y ∧ f32Scaled x < f32Scaled y) := by
  have hnan : ∀ x : F32, 0x7f800000 < f32Mag x ↔ F32IsNan x := by
    intro x
    have hx := x.toNat_lt
    unfold f32Mag F32IsNan
    omega
  have hlt : f32Key x < f32Key y ↔ f32Scaled x < f32Scaled y := by
    rw [f32Scaled_eq, f32Scaled_eq]
    unfold f32Key
    have hxy := @f32MagVal_lt_iff (f32Mag x) (f32Mag y)
    have hyx := @f32MagVal_lt_iff (f32Mag y) (f32Mag x)
    have hx0 := @f32MagVal_lt_iff 0 (f32Mag x)
    have hy0 := @f32MagVal_lt_iff 0 (f32Mag y)
    rw [show f32MagVal 0 = 0 from rfl] at hx0 hy0
    split <;> split <;> omega
  constructor
  · rw [← hnan]
    exact decide_eq_true_iff
  · rw [← hnan, ← hnan, ← hlt]
    simp only [ScalarOrd.lt, Bool.and_eq_true, Bool.not_eq_true', decide_eq_false_iff_not, decide_eq_true_eq, and_assoc]

example : f32Scaled 0x3f800000 = 2 ^ 149 ∧ f32Scaled 0xbf800000 = - 2 ^ 149 ∧ f32Scaled 1 = 1 ∧
    f32Scaled 0x80000000 = f32Scaled 0 ∧ f32Scaled 0x7f800000 = 2 ^ 277 := by decide +kernel
example : ScalarOrd.lt (0xbf800000 : F32) 0x3f800000 = true := by decide +kernel

/-! ## Plain analogies -/

namespace Embeddings

variable {T V S F : Type} [Vocab V] [Storage S F] [StorageView S F] [Scalar F] [ScalarOrd F]

/-- C44 for plain analogies: none of the three words of the question is returned. -/
theorem c44_plain_analogy (e : Embeddings T V S F) (x y z : Str) (limit : Nat) (bs : Option Nat)
    (r : List (WordSim F)) (h : e.analogy x y z limit bs = .ok (.ok r)) :
    ∀ a ∈ r, a.word ≠ x ∧ a.word ≠ y ∧ a.word ≠ z ∧ a.word ∈ Vocab.words e.vocab := by
  intro a ha
  obtain ⟨h1, h2, h3, h4⟩ := c44_analogy e x y z true true true limit bs r h a ha
  exact ⟨h1 rfl, h2 rfl, h3 rfl, h4⟩

/-- C45 for plain analogies: the results are the best words for the normalised `b - a + c` except for the words of the
question. -/
theorem c45_plain_vector [LawfulScalarOrd F] (e : Embeddings T V S F) {m : Mat F} {limit : Nat} {bs : Option Nat}
    (h : QueryOk e m limit bs) (x y z : Str)
    {a b c t : List F} (ha : e.embedding x = .ok (some a)) (hb : e.embedding y = .ok (some b))
    (hc : e.embedding z = .ok (some c)) (ht : IsOffset a b c t) (hl : t.length = m.cols)
    (q : List F) (hq : q = (l2Normalize t).1) (hn : NoNan e m q) :
    ∃ r, e.analogy x y z limit bs = .ok (.ok r) ∧
      TopResults limit (candidates (Vocab.words e.vocab) m.rows q [x, y, z]) r :=
  c45_vector e h x y z true true true ha hb hc ht hl q hq hn [x, y, z] (by simp)

/-- `c44_plain_analogy` and `c45_plain_vector` applied to the example. -/
example := @c44_plain_analogy _ _ _ _ _ _ _ exampleScalar _ exampleQuery ['c'] ['b'] ['a'] 2 none _ rfl
example := @c45_plain_vector _ _ _ _ _ _ _ exampleScalar _ _ exampleQuery _ _ _ exampleQuery_ok ['c'] ['b'] ['a']
  [2, 1] [2, 5] [1, 0] [1, 4] (by decide +kernel) (by decide +kernel) (by decide +kernel) exampleQuery_offset rfl _ rfl
  (by unfold NoNan; decide +kernel)

end Embeddings


/-! ## White space -/

/-- Specification: the characters with the Unicode property `White_Space`. -/
def whiteSpace : List Nat :=
  [0x09, 0x0A, 0x0B, 0x0C, 0x0D, 0x20, 0x85, 0xA0, 0x1680, 0x2000, 0x2001, 0x2002, 0x2003, 0x2004, 0x2005, 0x2006,
   0x2007, 0x2008, 0x2009, 0x200A, 0x2028, 0x2029, 0x202F, 0x205F, 0x3000]

/-- Specification: space, tab, line feed, form feed, carriage return. -/
def asciiWhiteSpace : List Char := [' ', '\t', '\n', '\x0c', '\r']

/-- Specification: `t` is `s` without the longest beginning and end of characters that satisfy `p`. -/
def Trimmed (p : Char → Prop) (s t : Str) : Prop :=
  (∃ a b, s = a ++ t ++ b ∧ (∀ c ∈ a, p c) ∧ ∀ c ∈ b, p c) ∧
  (∀ c, t.head? = some c → ¬ p c) ∧ ∀ c, t.getLast? = some c → ¬ p c

theorem isWhitespace_iff (c : Char) : isWhitespace c = true ↔ c.toNat ∈ whiteSpace := by
  unfold isWhitespace whiteSpace
  simp only [Bool.or_eq_true, Bool.and_eq_true, decide_eq_true_eq, beq_iff_eq, List.mem_cons, List.not_mem_nil, or_false]
  omega

/-- C49: the text readers take exactly these characters as separators. -/
theorem c49_separators (c : Char) : isAsciiWs c = true ↔ c ∈ asciiWhiteSpace := by
  unfold isAsciiWs asciiWhiteSpace
  simp only [Bool.or_eq_true, beq_iff_eq, List.mem_cons, List.not_mem_nil, or_false, or_assoc, Char.ext_iff,
    ← UInt32.toNat_inj, Char.toNat]
  rfl

theorem dropWhile_trim (p : Char → Bool) (s : Str) :
    ∃ a, s = a ++ s.dropWhile p ∧ (∀ c ∈ a, p c = true) ∧ ∀ c, (s.dropWhile p).head? = some c → p c = false :=
  ⟨s.takeWhile p, List.takeWhile_append_dropWhile.symm, takeWhile_all p s, fun c h => head_dropWhile p s c h⟩

theorem trimBy_trimmed (p : Char → Bool) (s : Str) : Trimmed (fun c => p c = true) s (trimBy p s) := by
  obtain ⟨a, h1, h2, h3⟩ := dropWhile_trim p s
  obtain ⟨b, h4, h5, h6⟩ := dropWhile_trim p (s.dropWhile p).reverse
  have h7 : s.dropWhile p = trimBy p s ++ b.reverse := by
    unfold trimBy
    rw [← List.reverse_append, ← h4, List.reverse_reverse]
  refine ⟨⟨a, b.reverse, ?_, h2, fun c hc => h5 c (List.mem_reverse.mp hc)⟩, ?_, ?_⟩
  · rw [List.append_assoc, ← h7]; exact h1
  · intro c hc
    have := h3 c (by rw [h7, List.head?_append, hc]; rfl)
    simp [this]
  · intro c hc
    have := h6 c (by rw [← hc]; unfold trimBy; rw [List.getLast?_reverse])
    simp [this]

theorem dropWhile_append_all (p : Char → Bool) {a : Str} (h : ∀ c ∈ a, p c = true) (t : Str) :
    (a ++ t).dropWhile p = t.dropWhile p := by
  induction a with
  | nil => rfl
  | cons c a ih =>
    rw [List.cons_append, List.dropWhile_cons_of_pos (h c (by simp)), ih fun x hx => h x (by simp [hx])]

theorem Trimmed.eq {p : Char → Bool} {s t : Str} (h : Trimmed (fun c => p c = true) s t) : trimBy p s = t := by
  obtain ⟨⟨a, b, rfl, ha, hb⟩, h1, h2⟩ := h
  have hd : ∀ u : Str, (∀ c, u.head? = some c → ¬ p c = true) → u.dropWhile p = u := by
    intro u hu
    cases u with
    | nil => rfl
    | cons c u => rw [List.dropWhile_cons_of_neg (hu c rfl)]
  unfold trimBy
  rw [List.append_assoc, dropWhile_append_all p ha]
  have hb' : ∀ c ∈ b.reverse, p c = true := fun c hc => hb c (List.mem_reverse.mp hc)
  cases t with
  | nil =>
    have : b.dropWhile p = [] := by
      have := dropWhile_append_all p hb []
      simpa using this
    simp [this]
  | cons c t =>
    rw [hd (c :: t ++ b) (by intro x hx; exact h1 x hx), List.reverse_append, dropWhile_append_all p hb', hd, List.reverse_reverse]
    intro x hx
    rw [List.head?_reverse] at hx
    exact h2 x hx

/-- C48: the word2vec reader removes exactly the Unicode white space around words. -/
theorem c48_trim (s t : Str) : trimBy isWhitespace s = t ↔ Trimmed (fun c => c.toNat ∈ whiteSpace) s t := by
  have : (fun c : Char => c.toNat ∈ whiteSpace) = fun c => isWhitespace c = true := by
    funext c; exact propext (isWhitespace_iff c).symm
  rw [this]
  exact ⟨fun h => h ▸ trimBy_trimmed _ s, Trimmed.eq⟩

example : Trimmed (fun c => c.toNat ∈ whiteSpace) "\n a b ".toList "a b".toList :=
  (c48_trim _ _).mp (by decide +kernel)

end FF
