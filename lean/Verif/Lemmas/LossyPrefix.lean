import Verif.Props.TextExact

/-! # Lossy decoding of the beginning of data (for C82)

The lossy readers replace what is not UTF-8 by `U+FFFD`. A file may be cut off within a character. -/

namespace FF

theorem lossy_partial {c : Char} {seg : Bytes} (h : seg <+: String.utf8EncodeChar c)
    (hlt : seg.length < (String.utf8EncodeChar c).length) (hne : seg ≠ []) : Lossy seg [Char.ofNat 0xFFFD] := by
  have := Lossy.bad (seg := seg) (bs := []) (s := []) ?_ hne (.inr ⟨c, h⟩) ?_ .nil
  · simpa using this
  · rw [List.append_nil]
    intro c' h'
    obtain ⟨t, ht⟩ := h'.trans h
    have h1 := utf8Head_append c' t
    rw [ht, ← List.append_nil (String.utf8EncodeChar c), utf8Head_append] at h1
    cases h1
    have := h'.length_le
    omega
  · intro k c' h1 h2
    simp at h2
    omega

/-- What is decoded of the beginning of the data: the beginning of what is decoded of the data, and perhaps one `U+FFFD`
for an incomplete character. -/
theorem Lossy.take {bs : Bytes} {s : Str} (h : Lossy bs s) : ∀ m, ∃ s0 s', Lossy (bs.take m) s' ∧ s0 <+: s ∧
    (s' = s0 ∨ s' = s0 ++ [Char.ofNat 0xFFFD]) := by
  induction h with
  | nil => exact fun m => ⟨[], [], by rw [List.take_nil]; exact .nil, List.nil_prefix, .inl rfl⟩
  | @char c bs s _ ih =>
    intro m
    by_cases hm : (String.utf8EncodeChar c).length ≤ m
    · obtain ⟨s0, s', h1, h2, h3⟩ := ih (m - (String.utf8EncodeChar c).length)
      refine ⟨c :: s0, c :: s', ?_, (List.cons_prefix_cons).mpr ⟨rfl, h2⟩, ?_⟩
      · rw [List.take_append, List.take_of_length_le hm]
        exact .char c h1
      · rcases h3 with rfl | rfl
        · exact .inl rfl
        · exact .inr rfl
    · rw [List.take_append_of_le_length (by omega)]
      by_cases h0 : m = 0
      · subst h0
        exact ⟨[], [], .nil, List.nil_prefix, .inl rfl⟩
      · refine ⟨[], [Char.ofNat 0xFFFD], lossy_partial (List.take_prefix _ _) (by rw [List.length_take]; omega) ?_, List.nil_prefix, .inr rfl⟩
        intro h
        have := congrArg List.length h
        rw [List.length_take, List.length_nil] at this
        have := (enc_length c).1
        omega
  | @bad seg bs s h1 h2 h3 h4 _ ih =>
    intro m
    by_cases hm : seg.length ≤ m
    · obtain ⟨s0, s', g1, g2, g3⟩ := ih (m - seg.length)
      refine ⟨_ :: s0, Char.ofNat 0xFFFD :: s', ?_, (List.cons_prefix_cons).mpr ⟨rfl, g2⟩, ?_⟩
      · rw [List.take_append, List.take_of_length_le hm]
        have hp : seg ++ bs.take (m - seg.length) <+: seg ++ bs :=
          (List.prefix_append_right_inj seg).mpr (List.take_prefix _ _)
        refine .bad (fun c hc => h1 c (hc.trans hp)) h2 h3 (fun k c a1 a2 a3 => ?_) g1
        refine h4 k c a1 (Nat.le_trans a2 hp.length_le) ?_
        have : (seg ++ bs).take k = (seg ++ bs.take (m - seg.length)).take k := by
          obtain ⟨t, ht⟩ := hp
          rw [← ht, List.take_append_of_le_length a2]
        rw [this]
        exact a3
      · rcases g3 with rfl | rfl
        · exact .inl rfl
        · exact .inr rfl
    · rw [List.take_append_of_le_length (by omega)]
      by_cases h0 : m = 0
      · subst h0
        exact ⟨[], [], .nil, List.nil_prefix, .inl rfl⟩
      · rcases h3 with h3 | ⟨c, hc⟩
        · omega
        · have hl := hc.length_le
          refine ⟨[], [Char.ofNat 0xFFFD], lossy_partial ((List.take_prefix _ _).trans hc)
            (by rw [List.length_take]; omega) ?_,
            List.nil_prefix, .inr rfl⟩
          intro h
          have := congrArg List.length h
          simp at this
          rcases this with rfl | this
          · exact h0 rfl
          · exact h2 this

/-- A text that is empty or ends with white space, and what follows, have their own tokens. -/
theorem TokensOf.append {a : Str} {ts : List Str} (h : TokensOf a ts)
    (hl : ∀ c, a.getLast? = some c → isAsciiWs c = true) (b : Str) : parts (a ++ b) = ts ++ parts b := by
  induction h with
  | nil h => exact parts_ws h b
  | @cons lead t rest ts h1 h2 h3 h4 ih =>
    have hne : rest ≠ [] := by
      rintro rfl
      obtain ⟨c, hc⟩ : ∃ c, t.getLast? = some c := by
        cases hg : t.getLast? with
        | none => exact absurd (List.getLast?_eq_none_iff.mp hg) h2.1
        | some c => exact ⟨c, rfl⟩
      have := hl c (by simp [List.getLast?_append, hc])
      rw [h2.2 c (List.mem_of_getLast? hc)] at this
      cases this
    have h3' : ∀ c, (rest ++ b).head? = some c → isAsciiWs c = true := by
      cases rest with
      | nil => exact absurd rfl hne
      | cons c r => exact h3
    rw [List.append_assoc, List.append_assoc, parts_ws h1, parts_token_append h2 h3', ih, List.cons_append]
    intro c hc
    refine hl c ?_
    simp [List.getLast?_append, hc]

/-- Every text is one that is empty or ends with white space, and characters that are not white space. -/
theorem ends_split (a : Str) : ∃ x t, a = x ++ t ∧ (∀ c, x.getLast? = some c → isAsciiWs c = true) ∧
    ∀ c ∈ t, isAsciiWs c = false := by
  induction a with
  | nil => exact ⟨[], [], rfl, by simp, by simp⟩
  | cons c a ih =>
    obtain ⟨x, t, rfl, h1, h2⟩ := ih
    cases x with
    | cons d x => exact ⟨c :: d :: x, t, rfl, by simpa using h1, h2⟩
    | nil =>
      cases hc : isAsciiWs c with
      | true => exact ⟨[c], t, rfl, by simpa using hc, h2⟩
      | false =>
        refine ⟨[], c :: t, rfl, by simp, ?_⟩
        intro d hd
        rcases List.mem_cons.mp hd with rfl | hd
        · exact hc
        · exact h2 d hd

/-- If the beginning of a text is continued by characters that are not white space, then all its tokens but the last are
the first tokens of the text. -/
theorem parts_continued {a b x : Str} (hx : ∀ c ∈ x, isAsciiWs c = false) :
    (parts (a ++ x)).dropLast <+: parts (a ++ b) := by
  obtain ⟨y, t, rfl, h1, h2⟩ := ends_split a
  have hy := (parts_spec y _).mp rfl
  rw [List.append_assoc, List.append_assoc, hy.append h1, hy.append h1]
  by_cases h0 : t ++ x = []
  · rw [h0, parts_nil, List.append_nil]
    exact (List.dropLast_prefix _).trans (List.prefix_append _ _)
  · rw [parts_token ⟨h0, fun c hc => (List.mem_append.mp hc).elim (h2 c) (hx c)⟩, List.dropLast_concat]
    exact List.prefix_append _ _

/-- A line cut off, perhaps with `U+FFFD` at its end, carries the same word and the same components up to the last one, if
it carries as many. -/
theorem tokens_continued {s s0 s' x : Str} {w w' : Str} {ps ps' : List Str} (h : TokensOf s (w :: ps))
    (h' : TokensOf s' (w' :: ps')) (hs' : s' = s0 ++ x) (hx : ∀ c ∈ x, isAsciiWs c = false)
    (hp : s0 <+: s) (hlen : ps'.length = ps.length) (hne : ps ≠ []) : w' = w ∧ ps'.dropLast = ps.dropLast := by
  obtain ⟨b, rfl⟩ := hp
  subst hs'
  have h1 := parts_continued (a := s0) (b := b) hx
  rw [h.parts_eq, h'.parts_eq] at h1
  cases ps with
  | nil => exact absurd rfl hne
  | cons p ps =>
    cases ps' with
    | nil => simp at hlen
    | cons p' ps' =>
      rw [List.dropLast_cons_cons, List.cons_prefix_cons] at h1
      refine ⟨h1.1, ?_⟩
      have h2 := List.prefix_iff_eq_take.mp h1.2
      rw [h2, List.length_dropLast, hlen, List.dropLast_eq_take]

end FF
