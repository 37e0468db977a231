import Verif.Props.Layout

/-!
# Readers as descriptions of what they accept

`Parses p L` says exactly which data a reader `p` accepts and with which results, in terms of patterns of bytes.
-/

namespace FF

open Rd

namespace Layout

/-- A pattern: bytes that must be present, and gaps whose bytes are arbitrary and may even lie beyond the end of the
data. -/
abbrev Pat := List (Option UInt8)

/-- The pattern of given bytes. -/
def lit (bs : Bytes) : Pat := bs.map some

/-- A gap of `n` bytes. -/
def gap (n : Nat) : Pat := List.replicate n none

/-- The data has the bytes of the pattern at position `pos`. -/
def Matches (d : Bytes) (pos : Nat) (pat : Pat) : Prop := ∀ i b, pat[i]? = some (some b) → d[pos + i]? = some b

end Layout

open Layout

theorem Matches.nil (d : Bytes) (pos : Nat) : Matches d pos [] := by
  intro i b h; simp at h

theorem Matches.append {d : Bytes} {pos : Nat} {a b : Pat} :
    Matches d pos (a ++ b) ↔ Matches d pos a ∧ Matches d (pos + a.length) b := by
  constructor
  · intro h
    refine ⟨fun i x hx => h i x ?_, fun i x hx => ?_⟩
    · rw [List.getElem?_append_left (by
        rcases Nat.lt_or_ge i a.length with h | h
        · exact h
        · rw [List.getElem?_eq_none h] at hx; cases hx)]
      exact hx
    · have := h (a.length + i) x (by rw [List.getElem?_append_right (by omega)]; simpa using hx)
      rwa [← Nat.add_assoc] at this
  · rintro ⟨h1, h2⟩ i x hx
    rcases Nat.lt_or_ge i a.length with h | h
    · rw [List.getElem?_append_left h] at hx
      exact h1 i x hx
    · rw [List.getElem?_append_right h] at hx
      have := h2 _ x hx
      rwa [show pos + a.length + (i - a.length) = pos + i by omega] at this

theorem Matches.gap (d : Bytes) (pos n : Nat) : Matches d pos (gap n) := by
  intro i b h
  rw [Layout.gap, List.getElem?_replicate] at h
  split at h <;> simp at h

theorem lit_length (bs : Bytes) : (lit bs).length = bs.length := by simp [lit]
theorem gap_length (n : Nat) : (gap n).length = n := by simp [gap]
theorem lit_append (a b : Bytes) : lit (a ++ b) = lit a ++ lit b := by simp [lit]

theorem Matches.lit {d : Bytes} {pos : Nat} {bs : Bytes} :
    Matches d pos (lit bs) ↔ bs = [] ∨ (pos + bs.length ≤ d.length ∧ bs = (d.drop pos).take bs.length) := by
  constructor
  · intro h
    by_cases h0 : bs = []
    · exact .inl h0
    · right
      have hl : ∀ i (hi : i < bs.length), d[pos + i]? = some bs[i] := by
        intro i hi
        exact h i _ (by simp [Layout.lit, List.getElem?_eq_getElem hi])
      have hpos : 0 < bs.length := List.length_pos_iff.mpr h0
      have h1 : pos + bs.length ≤ d.length := by
        have := hl (bs.length - 1) (by omega)
        have := List.getElem?_eq_some_iff.mp this
        obtain ⟨h, _⟩ := this
        omega
      refine ⟨h1, ?_⟩
      apply List.ext_getElem?
      intro i
      rcases Nat.lt_or_ge i bs.length with hi | hi
      · rw [List.getElem?_take_of_lt hi, List.getElem?_drop, hl i hi, List.getElem?_eq_getElem hi]
      · rw [List.getElem?_eq_none hi, List.getElem?_eq_none (by simp; omega)]
  · rintro (rfl | ⟨h1, h2⟩)
    · exact Matches.nil d pos
    · intro i b hb
      simp only [Layout.lit, List.getElem?_map, Option.map_eq_some_iff, Option.some.injEq, exists_eq_right] at hb
      have hi : i < bs.length := by
        rcases Nat.lt_or_ge i bs.length with h | h
        · exact h
        · rw [List.getElem?_eq_none h] at hb; cases hb
      rw [h2, List.getElem?_take_of_lt hi, List.getElem?_drop] at hb
      exact hb

/-- The reader `p`, started at `pos`, returns `a` exactly if the data has one of the patterns `L pos a` there; it then
stops at the end of the pattern. -/
def Parses {α : Type} (p : Rd α) (L : Nat → α → Pat → Prop) : Prop :=
  ∀ d pos a q, p d pos = .ok (a, q) ↔ ∃ pat, L pos a pat ∧ Matches d pos pat ∧ q = pos + pat.length

theorem Parses.pure {α : Type} (x : α) : Parses (pure x) fun _ a pat => a = x ∧ pat = [] := by
  intro d pos a q
  rw [pure_apply]
  constructor
  · intro h; cases h; exact ⟨[], ⟨rfl, rfl⟩, Matches.nil _ _, rfl⟩
  · rintro ⟨pat, ⟨rfl, rfl⟩, _, rfl⟩; rfl

theorem Parses.fail {α : Type} (e : Err) : Parses (fail e : Rd α) fun _ _ _ => False := by
  intro d pos a q
  simp

theorem Parses.lift {α : Type} (r : Res α) : Parses (lift r) fun _ a pat => r = .ok a ∧ pat = [] := by
  intro d pos a q
  rw [Rd.lift_ok]
  constructor
  · rintro ⟨h, rfl⟩; exact ⟨[], ⟨h, rfl⟩, Matches.nil _ _, rfl⟩
  · rintro ⟨pat, ⟨h, rfl⟩, _, rfl⟩; exact ⟨h, rfl⟩

theorem Parses.alloc (s n : Nat) : Parses (alloc s n) fun _ _ pat => s * n ≤ isizeMax ∧ pat = [] := by
  intro d pos a q
  rw [Rd.alloc, Rd.assert_ok, decide_eq_true_iff]
  constructor
  · rintro ⟨h, rfl⟩; exact ⟨[], ⟨h, rfl⟩, Matches.nil _ _, rfl⟩
  · rintro ⟨pat, ⟨h, rfl⟩, _, rfl⟩; exact ⟨h, rfl⟩

theorem Parses.position : Parses position fun pos a pat => a = pos ∧ pat = [] := by
  intro d pos a q
  rw [position_apply]
  constructor
  · intro h; cases h; exact ⟨[], ⟨rfl, rfl⟩, Matches.nil _ _, rfl⟩
  · rintro ⟨pat, ⟨rfl, rfl⟩, _, rfl⟩; rfl

theorem Parses.skip (n : Nat) : Parses (skip n) fun _ _ pat => pat = gap n := by
  intro d pos a q
  rw [skip_apply]
  constructor
  · intro h; cases h; exact ⟨_, rfl, Matches.gap _ _ _, by rw [gap_length]⟩
  · rintro ⟨pat, rfl, _, rfl⟩; rw [gap_length]

theorem Parses.readExact (n : Nat) : Parses (readExact n) fun _ a pat => a.length = n ∧ pat = lit a := by
  intro d pos a q
  constructor
  · intro h
    have hh := readExact_ok h
    by_cases h0 : n = 0
    · subst h0
      obtain ⟨rfl, rfl, _⟩ := hh
      exact ⟨[], ⟨by simp, by simp [lit]⟩, Matches.nil _ _, rfl⟩
    · obtain ⟨rfl, rfl, hl⟩ := hh
      have hl := hl h0
      have e : ((d.drop pos).take n).length = n := by simp; omega
      refine ⟨_, ⟨e, rfl⟩, Matches.lit.mpr (.inr ⟨by rw [e]; exact hl, by rw [e]⟩), by rw [lit_length, e]⟩
  · rintro ⟨pat, ⟨rfl, rfl⟩, hm, rfl⟩
    rw [lit_length]
    rcases Matches.lit.mp hm with rfl | ⟨h1, h2⟩
    · simp [Rd.readExact]
    · unfold Rd.readExact
      split
      · rename_i h0
        have : a = [] := List.length_eq_zero_iff.mp h0
        simp [this]
      · rw [← h2]

theorem Parses.bind {α β : Type} {p : Rd α} {f : α → Rd β} {L : Nat → α → Pat → Prop}
    {M : α → Nat → β → Pat → Prop} (hp : Parses p L) (hf : ∀ a, Parses (f a) (M a)) :
    Parses (p >>= f) fun pos b pat => ∃ a p1 p2, pat = p1 ++ p2 ∧ L pos a p1 ∧ M a (pos + p1.length) b p2 := by
  intro d pos b q
  rw [Rd.bind_ok]
  constructor
  · rintro ⟨a, q1, h1, h2⟩
    obtain ⟨p1, hL, hm1, rfl⟩ := (hp _ _ _ _).mp h1
    obtain ⟨p2, hM, hm2, rfl⟩ := (hf a _ _ _ _).mp h2
    exact ⟨p1 ++ p2, ⟨a, p1, p2, rfl, hL, hM⟩, Matches.append.mpr ⟨hm1, hm2⟩, by rw [List.length_append]; omega⟩
  · rintro ⟨pat, ⟨a, p1, p2, rfl, hL, hM⟩, hm, rfl⟩
    obtain ⟨hm1, hm2⟩ := Matches.append.mp hm
    refine ⟨a, _, (hp _ _ _ _).mpr ⟨p1, hL, hm1, rfl⟩, (hf a _ _ _ _).mpr ⟨p2, hM, hm2, ?_⟩⟩
    rw [List.length_append]; omega

theorem Parses.congr {α : Type} {p : Rd α} {L L' : Nat → α → Pat → Prop} (hp : Parses p L)
    (h : ∀ pos a pat, L pos a pat ↔ L' pos a pat) : Parses p L' := by
  have : L = L' := by funext pos a pat; exact propext (h pos a pat)
  rw [← this]; exact hp

/-- A first step that consumes nothing. -/
theorem Parses.bind0 {α β : Type} {p : Rd α} {f : α → Rd β} {c : α → Prop}
    {M : α → Nat → β → Pat → Prop} (hp : Parses p fun _ a pat => c a ∧ pat = []) (hf : ∀ a, Parses (f a) (M a)) :
    Parses (p >>= f) fun pos b pat => ∃ a, c a ∧ M a pos b pat := by
  refine (hp.bind hf).congr fun pos b pat => ?_
  constructor
  · rintro ⟨a, p1, p2, rfl, ⟨hc, rfl⟩, h⟩; exact ⟨a, hc, h⟩
  · rintro ⟨a, hc, h⟩; exact ⟨a, [], pat, rfl, ⟨hc, rfl⟩, h⟩

theorem le32_leVal {bs : Bytes} (h : bs.length = 4) : le32 (leVal bs) = bs := by
  rw [← leBytes4_eq, ← h, leBytes_leVal]

theorem le64_leVal {bs : Bytes} (h : bs.length = 8) : le64 (leVal bs) = bs := by
  rw [← leBytes8_eq, ← h, leBytes_leVal]

theorem leVal_le32 {n : Nat} (h : n < 2 ^ 32) : leVal (le32 n) = n := by
  rw [← leBytes4_eq, leVal_leBytes_of_lt (by simpa using h)]

theorem leVal_le64 {n : Nat} (h : n < 2 ^ 64) : leVal (le64 n) = n := by
  rw [← leBytes8_eq, leVal_leBytes_of_lt (by simpa using h)]

theorem Parses.readU32 : Parses readU32 fun _ a pat => a < 2 ^ 32 ∧ pat = lit (le32 a) := by
  refine ((Parses.readExact 4).bind fun b => Parses.pure (leVal b)).congr fun pos a pat => ?_
  constructor
  · rintro ⟨b, p1, p2, rfl, ⟨hb, rfl⟩, rfl, rfl⟩
    have := leVal_lt b
    rw [hb] at this
    exact ⟨this, by rw [le32_leVal hb, List.append_nil]⟩
  · rintro ⟨h, rfl⟩
    exact ⟨le32 a, _, [], by rw [List.append_nil], ⟨rfl, rfl⟩, (leVal_le32 h).symm, rfl⟩

theorem Parses.readU64 : Parses readU64 fun _ a pat => a < 2 ^ 64 ∧ pat = lit (le64 a) := by
  refine ((Parses.readExact 8).bind fun b => Parses.pure (leVal b)).congr fun pos a pat => ?_
  constructor
  · rintro ⟨b, p1, p2, rfl, ⟨hb, rfl⟩, rfl, rfl⟩
    have := leVal_lt b
    rw [hb] at this
    exact ⟨this, by rw [le64_leVal hb, List.append_nil]⟩
  · rintro ⟨h, rfl⟩
    exact ⟨le64 a, _, [], by rw [List.append_nil], ⟨rfl, rfl⟩, (leVal_le64 h).symm, rfl⟩

theorem f32Bytes_f32Val {bs : Bytes} (h : bs.length = 4) : f32Bytes (f32Val bs) = bs := by
  unfold f32Bytes f32Val
  have := leVal_lt bs
  rw [h] at this
  rw [UInt32.toNat_ofNat', Nat.mod_eq_of_lt (by simpa using this), ← h, leBytes_leVal]

theorem encodeF32s_decodeF32s (n : Nat) (bs : Bytes) (h : bs.length = 4 * n) : encodeF32s (decodeF32s n bs) = bs := by
  induction n generalizing bs with
  | zero =>
    have : bs = [] := List.length_eq_zero_iff.mp (by omega)
    simp [this, decodeF32s]
  | succ n ih =>
    rw [decodeF32s, encodeF32s_cons, ih _ (by simp; omega), f32Bytes_f32Val (by simp; omega), List.take_append_drop]

theorem Parses.readF32s (n : Nat) : Parses (readF32s n) fun _ a pat => a.length = n ∧ pat = lit (floats a) := by
  refine ((Parses.readExact (4 * n)).bind fun b => Parses.pure (decodeF32s n b)).congr fun pos a pat => ?_
  constructor
  · rintro ⟨b, p1, p2, rfl, ⟨hb, rfl⟩, rfl, rfl⟩
    exact ⟨decodeF32s_length _ _, by rw [← encodeF32s_eq, encodeF32s_decodeF32s n b hb, List.append_nil]⟩
  · rintro ⟨rfl, rfl⟩
    refine ⟨floats a, _, [], by rw [List.append_nil], ⟨by rw [← encodeF32s_eq, encodeF32s_length], rfl⟩, ?_, rfl⟩
    rw [← encodeF32s_eq]
    simpa using (decodeF32s_encodeF32s a []).symm

theorem Parses.replicateM {α : Type} {p : Rd α} {c : α → Prop} {enc : α → Pat}
    (hp : Parses p fun _ a pat => c a ∧ pat = enc a) (n : Nat) :
    Parses (replicateM n p) fun _ as pat => as.length = n ∧ (∀ a ∈ as, c a) ∧ pat = as.flatMap enc := by
  induction n with
  | zero =>
    refine (Parses.pure []).congr fun pos as pat => ?_
    constructor
    · rintro ⟨rfl, rfl⟩; exact ⟨rfl, by simp, rfl⟩
    · rintro ⟨h, _, rfl⟩
      have : as = [] := List.length_eq_zero_iff.mp h
      subst this; exact ⟨rfl, rfl⟩
  | succ n ih =>
    refine (hp.bind fun a => ih.bind fun as => Parses.pure (a :: as)).congr fun pos as pat => ?_
    constructor
    · rintro ⟨a, p1, p2, rfl, ⟨hc, rfl⟩, as, p3, p4, rfl, ⟨rfl, hcs, rfl⟩, rfl, rfl⟩
      exact ⟨rfl, by simpa using ⟨hc, hcs⟩, by simp⟩
    · rintro ⟨h, hc, rfl⟩
      cases as with
      | nil => simp at h
      | cons a as =>
        exact ⟨a, _, as.flatMap enc, by simp, ⟨hc a (by simp), rfl⟩, as, _, [], by simp,
          ⟨by simpa using h, fun x hx => hc x (by simp [hx]), rfl⟩, rfl, rfl⟩

end FF
