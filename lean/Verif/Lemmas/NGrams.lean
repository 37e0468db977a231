import Verif.Model.Subword

namespace FF

@[simp] theorem strLen_nil : strLen [] = 0 := rfl
@[simp] theorem strLen_cons (c : Char) (s : Str) : strLen (c :: s) = c.utf8Size + strLen s := by
  simp [strLen]
@[simp] theorem strLen_append (s t : Str) : strLen (s ++ t) = strLen s + strLen t := by
  simp [strLen]

@[simp] theorem charOffsetsFrom_length (o : Nat) (s : Str) : (charOffsetsFrom o s).length = s.length := by
  induction s generalizing o with
  | nil => rfl
  | cons c s ih => simp [charOffsetsFrom, ih]

theorem charOffsetsFrom_getElem? (o : Nat) (s : Str) (n : Nat) (h : n < s.length) :
    (charOffsetsFrom o s)[n]? = some (o + strLen (s.take n)) := by
  induction s generalizing o n with
  | nil => simp at h
  | cons c s ih =>
    cases n with
    | zero => simp [charOffsetsFrom]
    | succ n =>
      simp only [charOffsetsFrom, List.getElem?_cons_succ]
      rw [ih _ _ (by simpa using h)]
      simp; omega

theorem sliceFrom_strLen (pre suf : Str) : sliceFrom (pre ++ suf) (strLen pre) = .ok suf := by
  induction pre with
  | nil => cases suf <;> rfl
  | cons c pre ih =>
    have hp := c.utf8Size_pos
    obtain ⟨k, hk⟩ : ∃ k, strLen (c :: pre) = k + 1 := ⟨strLen (c :: pre) - 1, by simp; omega⟩
    rw [hk, List.cons_append, sliceFrom]
    simp only [strLen_cons] at hk
    rw [if_neg (by omega), show k + 1 - c.utf8Size = strLen pre by omega, ih]

theorem sliceTo_strLen (pre suf : Str) : sliceTo (pre ++ suf) (strLen pre) = .ok pre := by
  induction pre with
  | nil => cases suf <;> rfl
  | cons c pre ih =>
    have hp := c.utf8Size_pos
    obtain ⟨k, hk⟩ : ∃ k, strLen (c :: pre) = k + 1 := ⟨strLen (c :: pre) - 1, by simp; omega⟩
    rw [hk, List.cons_append, sliceTo]
    simp only [strLen_cons] at hk
    rw [if_neg (by omega), show k + 1 - c.utf8Size = strLen pre by omega, ih]
    rfl

/-- Descending list of lengths `hi, hi-1, .., lo`. -/
def down (lo : Nat) : Nat → List Nat
  | 0 => if lo = 0 then [0] else []
  | h + 1 => if lo ≤ h + 1 then (h + 1) :: down lo h else []

theorem down_eq_nil {lo hi : Nat} (h : hi < lo) : down lo hi = [] := by
  cases hi with
  | zero => simp [down]; omega
  | succ n => simp [down]; omega

theorem down_cons {lo hi : Nat} (h : lo ≤ hi) (hlo : 0 < lo) : down lo hi = hi :: down lo (hi - 1) := by
  cases hi with
  | zero => omega
  | succ n => simp [down, h]

theorem mem_down {lo hi n : Nat} : n ∈ down lo hi ↔ lo ≤ n ∧ n ≤ hi := by
  induction hi with
  | zero => simp only [down]; split <;> simp <;> omega
  | succ h ih =>
    simp only [down]
    split
    · simp [ih]; omega
    · simp; omega

/-- The n-grams of all suffixes of `s` including `s` itself. -/
def specFrom (m M : Nat) : Str → List NGram
  | [] => []
  | c :: cs => (down m (min M (cs.length + 1))).map (fun n => ⟨(c :: cs).take n, n⟩) ++ specFrom m M cs

theorem specFrom_eq_nil {m M : Nat} {s : Str} (h : s.length < m) : specFrom m M s = [] := by
  induction s with
  | nil => rfl
  | cons c s ih =>
    simp only [List.length_cons] at h
    rw [specFrom, down_eq_nil (by omega), ih (by omega)]; rfl

/-- Iterator state when the current suffix is `suf`, preceded by `pre`. -/
abbrev stateAt (m M : Nat) (pre suf : Str) (n : Nat) : NGrams :=
  { maxN := M, minN := m, string := pre ++ suf, charOffsets := charOffsetsFrom (strLen pre) suf, ngramLen := n }

theorem emit_stateAt (m M : Nat) (pre suf : Str) (n : Nat) (h1 : 1 ≤ n) (h2 : n ≤ suf.length) :
    (stateAt m M pre suf n).emit = .ok (some ⟨suf.take n, n⟩, stateAt m M pre suf (n - 1)) := by
  have h0 : (charOffsetsFrom (strLen pre) suf)[0]? = some (strLen pre) := by
    rw [charOffsetsFrom_getElem? _ _ _ (by omega)]; simp
  simp only [NGrams.emit, stateAt]
  rw [h0]
  simp only [Res.unwrap_some, Res.ok_bind, charOffsetsFrom_length]
  by_cases he : n = suf.length
  · subst he
    rw [if_pos rfl, sliceFrom_strLen]
    have hz : ¬ List.length suf = 0 := by omega
    simp [hz]
  · rw [if_neg he, charOffsetsFrom_getElem? _ _ _ (by omega)]
    simp only [Res.unwrap_some, Res.ok_bind]
    have hs : slice (pre ++ suf) (strLen pre) (strLen pre + strLen (suf.take n)) = .ok (suf.take n) := by
      unfold slice
      rw [if_neg (by omega), sliceFrom_strLen]
      simp only [Res.ok_bind]
      rw [show strLen pre + strLen (suf.take n) - strLen pre = strLen (suf.take n) by omega]
      conv => lhs; rw [← List.take_append_drop n suf]
      rw [List.take_left' (by simp; omega)]
      exact sliceTo_strLen _ _
    rw [hs]
    have hz : ¬ n = 0 := by omega
    simp [hz]

theorem next_of_ge {it : NGrams} (h : ¬ it.ngramLen < it.minN) : it.next = it.emit := if_neg h

theorem next_of_none {it : NGrams} (h : it.ngramLen < it.minN) (h' : it.charOffsets.tail.length < it.minN) :
    it.next = .ok (none, { it with charOffsets := it.charOffsets.tail }) :=
  (if_pos h).trans (if_pos h')

theorem next_of_suffix {it : NGrams} (h : it.ngramLen < it.minN) (h' : ¬ it.charOffsets.tail.length < it.minN) :
    it.next = NGrams.emit { it with charOffsets := it.charOffsets.tail, ngramLen := min it.maxN it.charOffsets.tail.length } :=
  (if_pos h).trans (if_neg h')

theorem collect_stateAt (m M : Nat) (hm : 1 ≤ m) (hM : m ≤ M) (fuel : Nat) :
    ∀ (pre suf : Str) (n : Nat), n ≤ suf.length → suf.length * (M + 1) + n + 1 ≤ fuel →
      (stateAt m M pre suf n).collect fuel =
        .ok ((down m n).map (fun k => ⟨suf.take k, k⟩) ++ specFrom m M suf.tail) := by
  induction fuel with
  | zero => intro pre suf n _ h; omega
  | succ fuel ih =>
    intro pre suf n hn hf
    rw [NGrams.collect]
    by_cases hlt : n < m
    · -- next suffix
      rw [down_eq_nil hlt]
      cases suf with
      | nil =>
        have : (stateAt m M pre [] n).next = .ok (none, stateAt m M pre [] n) := by
          rw [next_of_none hlt (by simp [stateAt, charOffsetsFrom]; omega)]
          rfl
        rw [this]; rfl
      | cons c suf =>
        by_cases hl : suf.length < m
        · have : (stateAt m M pre (c :: suf) n).next = .ok (none, { stateAt m M pre (c :: suf) n with charOffsets := charOffsetsFrom (strLen pre + c.utf8Size) suf }) := by
            rw [next_of_none hlt (by simpa [stateAt, charOffsetsFrom] using hl)]
            rfl
          rw [this, List.tail_cons, specFrom_eq_nil hl]; rfl
        · have hlen : 1 ≤ min M suf.length := by omega
          have : (stateAt m M pre (c :: suf) n).next =
              .ok (some ⟨suf.take (min M suf.length), min M suf.length⟩,
                stateAt m M (pre ++ [c]) suf (min M suf.length - 1)) := by
            rw [← emit_stateAt m M (pre ++ [c]) suf (min M suf.length) hlen (by omega)]
            rw [next_of_suffix hlt (by simpa [stateAt, charOffsetsFrom] using hl)]
            simp [stateAt, charOffsetsFrom]
          rw [this]
          simp only [Res.ok_bind]
          rw [ih (pre ++ [c]) suf (min M suf.length - 1) (by omega) (by
            have h1 : (c :: suf).length * (M + 1) = suf.length * (M + 1) + (M + 1) := by
              simp [Nat.add_mul]
            rw [h1] at hf; omega)]
          simp only [Res.ok_bind, Res.pure_eq, List.tail_cons, List.map_nil, List.nil_append]
          congr 1
          cases suf with
          | nil => simp at hl; omega
          | cons d suf =>
            rw [specFrom, List.length_cons, down_cons (lo := m) (hi := min M (suf.length + 1)) (by simp at hl; omega) hm]
            simp
    · have : (stateAt m M pre suf n).next = .ok (some ⟨suf.take n, n⟩, stateAt m M pre suf (n - 1)) := by
        rw [← emit_stateAt m M pre suf n (by omega) hn]
        exact next_of_ge hlt
      rw [this]
      simp only [Res.ok_bind]
      rw [ih pre suf (n - 1) (by omega) (by omega), down_cons (lo := m) (hi := n) (by omega) hm]
      rfl

theorem ngrams_eq_specFrom (s : Str) (m M : Nat) (hm : 1 ≤ m) (hM : m ≤ M) :
    ngrams s m M = .ok (specFrom m M s) := by
  have hnew : NGrams.new s m M = .ok (stateAt m M [] s (min M s.length)) := by
    have h1 : ¬ m = 0 := by omega
    simp [NGrams.new, h1, hM, stateAt]
  rw [ngrams, hnew]
  simp only [Res.ok_bind]
  rw [collect_stateAt m M hm hM _ [] s _ (by omega)
    (by simp [NGrams.fuel, stateAt])]
  congr 1
  cases s with
  | nil => rw [down_eq_nil (by simp; omega)]; rfl
  | cons c s => rfl

theorem ngrams_panic (s : Str) (m M : Nat) (h : m = 0 ∨ M < m) : ngrams s m M = .panic := by
  have : NGrams.new s m M = .panic := by
    unfold NGrams.new
    by_cases h0 : m = 0
    · simp [h0]
    · have : ¬ m ≤ M := by omega
      simp [h0, this]
  rw [ngrams, this]; rfl

end FF
