import Mathlib.Data.List.Forall2
import Verif.Props.Floret
import Verif.Props.TextExact

/-!
# C119: line endings and white space of text files
-/

namespace FF

open Rd Embeddings

/-! ## Specification -/

/-- Two lines of text with the same columns: they differ in the ASCII white space between, before and after the
columns at most. -/
def SameTokens (l l' : Bytes) : Prop :=
  ∃ s s' ts, utf8 s = l ∧ utf8 s' = l' ∧ TokensOf s ts ∧ TokensOf s' ts

/-- A file with carriage return and line feed instead of line feeds. -/
def crlf (d : Bytes) : Bytes := d.flatMap fun b => if b = 10 then [13, 10] else [b]

example : crlf (ascii "a 1\nb 2") = ascii "a 1\r\nb 2" := by decide +kernel

/-! ## Lines -/

theorem crlf_append (x y : Bytes) : crlf (x ++ y) = crlf x ++ crlf y := List.flatMap_append

theorem crlf_none {l : Bytes} (h : (10 : UInt8) ∉ l) : crlf l = l := by
  induction l with
  | nil => rfl
  | cons b l ih =>
    simp only [List.mem_cons, not_or] at h
    have hb : b ≠ 10 := fun e => h.1 e.symm
    have := ih h.2
    unfold crlf at this ⊢
    rw [List.flatMap_cons, this, if_neg hb, List.singleton_append]

theorem crlf_cons {l rest : Bytes} {b : UInt8} (h : (10 : UInt8) ∉ l) (hb : b ≠ 10) :
    crlf (l ++ b :: rest) = l ++ b :: crlf rest := by
  rw [crlf_append, crlf_none h]
  simp [crlf, hb]

theorem crlf_line {l : Bytes} (h : (10 : UInt8) ∉ l) (rest : Bytes) : crlf (l ++ 10 :: rest) = (l ++ [13]) ++ 10 :: crlf rest := by
  rw [crlf_append, crlf_none h]
  simp [crlf]

theorem crlf_lines {ls : List Bytes} (h : ∀ l ∈ ls, (10 : UInt8) ∉ l) :
    crlf (ls.flatMap (· ++ [10])) = (ls.map (· ++ [13])).flatMap (· ++ [10]) := by
  induction ls with
  | nil => rfl
  | cons l ls ih =>
    rw [List.flatMap_cons, crlf_append, ih fun x hx => h x (by simp [hx]), crlf_line (h l (by simp))]
    simp [crlf]

/-- The lines with the other line ends: a carriage return is at the end of each line, except perhaps the last. -/
theorem crlf_textLines (d : Bytes) :
    List.Forall₂ (fun l l' => l' = l ∨ l' = l ++ [13]) (textLines d) (textLines (crlf d)) := by
  have hcr : ∀ ls : List Bytes, List.Forall₂ (fun l l' => l' = l ∨ l' = l ++ [13]) ls (ls.map (· ++ [13])) := by
    intro ls
    induction ls with
    | nil => exact .nil
    | cons l ls ih => exact .cons (.inr rfl) ih
  obtain ⟨h1, h2⟩ := textLines_spec d
  rcases h2 with h2 | ⟨init, last, h2, h3, h4⟩
  · have : IsLines (crlf d) ((textLines d).map (· ++ [13])) := by
      refine ⟨fun l hl => ?_, .inl ?_⟩
      · obtain ⟨l', hl', rfl⟩ := List.mem_map.mp hl
        simpa using h1 l' hl'
      · conv => lhs; rw [h2]
        exact crlf_lines h1
    rw [← this.eq]
    exact hcr _
  · have hlast : (10 : UInt8) ∉ last := h1 last (by simp [h2])
    have hinit : ∀ l ∈ init, (10 : UInt8) ∉ l := fun l hl => h1 l (by simp [h2, hl])
    have : IsLines (crlf d) (init.map (· ++ [13]) ++ [last]) := by
      refine ⟨fun l hl => ?_, .inr ⟨init.map (· ++ [13]), last, rfl, h3, ?_⟩⟩
      · rcases List.mem_append.mp hl with hl | hl
        · obtain ⟨l', hl', rfl⟩ := List.mem_map.mp hl
          simpa using hinit l' hl'
        · rw [List.mem_singleton.mp hl]; exact hlast
      · rw [h4, crlf_append, crlf_lines hinit, crlf_none hlast]
    rw [← this.eq, h2]
    exact List.rel_append (hcr init) (.cons (.inl rfl) .nil)

theorem mapM_forall₂ {α β γ : Type} {f : α → Res γ} {g : β → Res γ} {xs : List α} {ys : List β}
    (h : List.Forall₂ (fun x y => f x = g y) xs ys) : xs.mapM f = ys.mapM g := by
  induction h with
  | nil => rfl
  | cons h _ ih => rw [List.mapM_cons, List.mapM_cons, h, ih]

/-! ## Decoding lines with a carriage return -/

theorem utf8Lossy_cr (l : Bytes) : utf8Lossy (l ++ [13]) = utf8Lossy l ++ ['\r'] := by
  generalize hl : l.length = n
  induction n using Nat.strongRecOn generalizing l with
  | ind n ih =>
    cases hh : utf8Head l with
    | some c =>
      have hs := utf8Head_some hh
      have hc := (enc_length c).1
      rw [String.length_utf8EncodeChar] at hc
      have hlen := congrArg List.length hs
      rw [List.length_append, String.length_utf8EncodeChar] at hlen
      rw [hs, List.append_assoc, utf8Lossy_char, utf8Lossy_char, ih _ (by omega) _ rfl, List.cons_append]
    | none =>
      by_cases h0 : l = []
      · subst h0; decide +kernel
      · have hn := utf8Head_none.mp hh
        have hn' : ∀ c, ¬ String.utf8EncodeChar c <+: l ++ [13] := by
          intro c hc
          rcases List.prefix_concat_iff.mp hc with h | h
          · obtain ⟨-, h2⟩ := mem_utf8EncodeChar_ascii (c := c) (b := 13) (by rw [h]; simp) (by decide)
            rw [h2] at h
            have := congrArg List.length h
            simp at this
            exact h0 this
          · exact hn c h
        have hi : invalidLen (l ++ [13]) = invalidLen l := by
          have h13 : isCont 13 = false := by decide
          have hv : ∀ a, validSecond a 13 = false := by
            intro a
            simp [validSecond, h13]
          match l with
          | [] => exact absurd rfl h0
          | [a] => simp [invalidLen, hv]
          | [a, b] => simp [invalidLen, h13]
          | a :: b :: c :: rest => simp [invalidLen]
        obtain ⟨a1, a2, -, -⟩ := invalidLen_spec h0 hn
        rw [utf8Lossy_bad h0 hn, utf8Lossy_bad (by simp) hn', hi, List.drop_append_of_le_length a2,
          ih _ (by rw [List.length_drop]; omega) _ rfl, List.cons_append]

theorem decodeToken_cr (lossy : Bool) (l : Bytes) :
    decodeToken lossy (l ++ [13]) = (decodeToken lossy l).map (· ++ ['\r']) := by
  cases lossy with
  | true => simp [decodeToken, utf8Lossy_cr, Res.map]
  | false =>
    unfold decodeToken
    rw [if_neg (by simp), if_neg (by simp), utf8Decode_cr]
    cases utf8Decode l <;> rfl

section
variable {F : Type} [FloatText F]

theorem readTextLine_cr (lossy : Bool) (l : Bytes) :
    readTextLine (F := F) lossy (l ++ [13]) = readTextLine lossy l := by
  unfold readTextLine
  rw [decodeToken_cr]
  cases decodeToken lossy l with
  | ok s => simp only [Res.map, Res.ok_bind, parts_cr]
  | err x => rfl
  | panic => rfl

theorem readTextLine_same {l l' : Bytes} (h : SameTokens l l') (lossy : Bool) :
    readTextLine (F := F) lossy l = readTextLine lossy l' := by
  obtain ⟨s, s', ts, rfl, rfl, h1, h2⟩ := h
  unfold readTextLine
  rw [decodeToken_utf8, decodeToken_utf8, Res.ok_bind, Res.ok_bind, h1.parts_eq, h2.parts_eq]

theorem readFloretLine_same {l l' : Bytes} (h : SameTokens l l') (k : Nat) :
    readFloretLine (F := F) k l = readFloretLine k l' := by
  obtain ⟨s, s', ts, rfl, rfl, h1, h2⟩ := h
  unfold readFloretLine
  rw [utf8Decode_utf8, utf8Decode_utf8, Res.ofOption_some, Res.ok_bind, Res.ofOption_some, Res.ok_bind,
    h1.parts_eq, h2.parts_eq]

variable {T : Type} [Scalar F]

omit [Scalar F] in
theorem readEmbeds_congr {shape : Option (Nat × Nat)} {lossy : Bool} {d d' : Bytes} {pos pos' : Nat}
    (h : List.Forall₂ (fun l l' => readTextLine (F := F) lossy l = readTextLine lossy l') (textLines (d.drop pos))
      (textLines (d'.drop pos'))) :
    (readEmbeds shape lossy d pos : Res (Embeddings T SimpleVocab (NdArray F) F)) = readEmbeds shape lossy d' pos' := by
  unfold readEmbeds
  rw [mapM_forall₂ h]

/-! ## Theorems: text files -/

/-- **C119** (text files). Files whose lines have the same columns are read as the same embeddings, or rejected
alike: white space between the columns, at the start and at the end of lines does not matter, whether or not the
last line feed is missing. All four readers for text without dimensions. -/
theorem c119_text (pre pre' d d' : Bytes) (ls ls' : List Bytes) (h1 : IsLines d ls) (h2 : IsLines d' ls')
    (h : List.Forall₂ SameTokens ls ls') (lossy : Bool) :
    (readTextRaw lossy (pre ++ d) pre.length : Res (Embeddings T SimpleVocab (NdArray F) F)) =
      readTextRaw lossy (pre' ++ d') pre'.length ∧
    (readText lossy (pre ++ d) pre.length : Res (Embeddings T SimpleVocab (NdArray F) F)) =
      readText lossy (pre' ++ d') pre'.length := by
  have : (readTextRaw lossy (pre ++ d) pre.length : Res (Embeddings T SimpleVocab (NdArray F) F)) =
      readTextRaw lossy (pre' ++ d') pre'.length := by
    refine readEmbeds_congr ?_
    rw [List.drop_left, List.drop_left, ← h1.eq, ← h2.eq]
    exact h.imp fun _ _ hl => readTextLine_same hl lossy
  exact ⟨this, by unfold readText; rw [this]⟩

/-- **C119** (text files, line ends). Every text file is read in the same way if its line feeds are replaced by
carriage returns and line feeds. All four readers, also for files that are not valid UTF-8. -/
theorem c119_crlf_text (pre d : Bytes) (lossy : Bool) :
    (readTextRaw lossy (pre ++ crlf d) pre.length : Res (Embeddings T SimpleVocab (NdArray F) F)) =
      readTextRaw lossy (pre ++ d) pre.length ∧
    (readText lossy (pre ++ crlf d) pre.length : Res (Embeddings T SimpleVocab (NdArray F) F)) =
      readText lossy (pre ++ d) pre.length := by
  have : (readTextRaw lossy (pre ++ crlf d) pre.length : Res (Embeddings T SimpleVocab (NdArray F) F)) =
      readTextRaw lossy (pre ++ d) pre.length := by
    refine (readEmbeds_congr ?_).symm
    rw [List.drop_left, List.drop_left]
    refine (crlf_textLines d).imp fun l l' hl => ?_
    rcases hl with rfl | rfl
    · rfl
    · exact (readTextLine_cr lossy l).symm
  exact ⟨this, by unfold readText; rw [this]⟩

end

/-! ## First lines -/

theorem token_step {β : Type} (delim : UInt8) (lossy : Bool) (k : Str → Rd β) (pre a rest : Bytes) (h : delim ∉ a) :
    (readToken delim lossy >>= k) (pre ++ (a ++ delim :: rest)) pre.length =
      decodeToken lossy a >>= fun s => k s ((pre ++ a ++ [delim]) ++ rest) (pre ++ a ++ [delim]).length := by
  rw [bind_apply, c54_token delim lossy pre a rest h]
  cases decodeToken lossy a with
  | ok s => simp [Res.map, Nat.add_assoc]
  | err x => rfl
  | panic => rfl

theorem number_step {β : Type} (delim : UInt8) (k : Nat → Rd β) (pre a rest : Bytes) (h : delim ∉ a) :
    (readNumber delim >>= k) (pre ++ (a ++ delim :: rest)) pre.length =
      decodeToken false a >>= fun s => Res.ofOption .format (parseUsize s) >>= fun n =>
        k n ((pre ++ a ++ [delim]) ++ rest) (pre ++ a ++ [delim]).length := by
  have : (readNumber delim >>= k) = readToken delim false >>= fun s => lift (Res.ofOption .format (parseUsize s)) >>= k := by
    funext d pos
    unfold readNumber
    simp only [bind_apply]
    cases readToken delim false d pos <;> rfl
  rw [this, token_step delim false _ pre a rest h]
  cases decodeToken false a with
  | ok s =>
    simp only [Res.ok_bind, bind_apply, Rd.lift]
    cases parseUsize s <;> rfl
  | err x => rfl
  | panic => rfl

/-- Reading `x` or `y` has the same outcome, at the same place after `n` bytes. -/
def SameHead {α : Type} (p : Rd α) (n : Nat) (x y : Bytes) : Prop :=
  ∀ pre, p (pre ++ x) pre.length = p (pre ++ y) pre.length ∧
    ∀ r q, p (pre ++ x) pre.length = .ok (r, q) → q = pre.length + n

theorem SameHead.cast {α : Type} {p : Rd α} {n m : Nat} {x y : Bytes} (e : n = m) (h : SameHead p n x y) :
    SameHead p m x y := e ▸ h

theorem SameHead.pure {α : Type} (a : α) (x y : Bytes) : SameHead (Pure.pure a : Rd α) 0 x y :=
  fun pre => ⟨rfl, fun r q h => by cases h; rfl⟩

theorem SameHead.token {β : Type} {delim : UInt8} {lossy : Bool} {k : Str → Rd β} {a x y : Bytes} {n : Nat}
    (h : delim ∉ a) (hk : ∀ s, SameHead (k s) n x y) :
    SameHead (readToken delim lossy >>= k) (a.length + 1 + n) (a ++ delim :: x) (a ++ delim :: y) := by
  intro pre
  rw [token_step delim lossy k pre a x h, token_step delim lossy k pre a y h]
  cases decodeToken lossy a with
  | ok s =>
    simp only [Res.ok_bind]
    obtain ⟨h1, h2⟩ := hk s (pre ++ a ++ [delim])
    refine ⟨h1, fun r q hq => ?_⟩
    have := h2 r q hq
    simp at this
    omega
  | err x => exact ⟨rfl, fun r q h => by cases h⟩
  | panic => exact ⟨rfl, fun r q h => by cases h⟩

theorem SameHead.number {β : Type} {delim : UInt8} {k : Nat → Rd β} {a x y : Bytes} {n : Nat}
    (h : delim ∉ a) (hk : ∀ s, SameHead (k s) n x y) :
    SameHead (readNumber delim >>= k) (a.length + 1 + n) (a ++ delim :: x) (a ++ delim :: y) := by
  intro pre
  rw [number_step delim k pre a x h, number_step delim k pre a y h]
  cases decodeToken false a with
  | ok s =>
    simp only [Res.ok_bind]
    cases parseUsize s with
    | none => exact ⟨rfl, fun r q h => by cases h⟩
    | some v =>
      simp only [Res.ofOption_some, Res.ok_bind]
      obtain ⟨h1, h2⟩ := hk v (pre ++ a ++ [delim])
      refine ⟨h1, fun r q hq => ?_⟩
      have := h2 r q hq
      simp at this
      omega
  | err x => exact ⟨rfl, fun r q h => by cases h⟩
  | panic => exact ⟨rfl, fun r q h => by cases h⟩

theorem space_split {l : Bytes} {n : Nat} (h : n + 1 ≤ l.count 32) :
    ∃ a l', l = a ++ 32 :: l' ∧ (32 : UInt8) ∉ a ∧ n ≤ l'.count 32 := by
  rcases takeThrough_cases 32 l with ⟨a, l', ha, rfl⟩ | hn
  · refine ⟨a, l', rfl, ha, ?_⟩
    rw [List.count_append, List.count_eq_zero.mpr ha, List.count_cons_self] at h
    omega
  · rw [List.count_eq_zero.mpr hn] at h
    omega

theorem sameHead_floret {first : Bytes} (h7 : 7 ≤ first.count 32) (hnl : (10 : UInt8) ∉ first) (x y : Bytes) :
    SameHead readFloretHead (first.length + 1) (first ++ 10 :: x) (first ++ 10 :: y) := by
  obtain ⟨a1, f, rfl, h1, h⟩ := space_split h7
  obtain ⟨a2, f, rfl, h2, h⟩ := space_split h
  obtain ⟨a3, f, rfl, h3, h⟩ := space_split h
  obtain ⟨a4, f, rfl, h4, h⟩ := space_split h
  obtain ⟨a5, f, rfl, h5, h⟩ := space_split h
  obtain ⟨a6, f, rfl, h6, h⟩ := space_split h
  obtain ⟨a7, f, rfl, h7, h⟩ := space_split h
  simp only [List.mem_append, List.mem_cons, not_or] at hnl
  have hf : (10 : UInt8) ∉ f := by tauto
  unfold readFloretHead
  simp only [List.append_assoc, List.cons_append, List.length_append, List.length_cons]
  refine SameHead.cast ?_ (SameHead.number h1 fun _ => SameHead.number h2 fun _ => SameHead.number h3 fun _ =>
    SameHead.number h4 fun _ => SameHead.number h5 fun _ => SameHead.number h6 fun _ => SameHead.token h7 fun _ =>
    SameHead.token hf fun _ => SameHead.pure _ x y)
  omega

theorem sameHead_dims {first : Bytes} (hsp : (32 : UInt8) ∈ first) (hnl : (10 : UInt8) ∉ first) (x y : Bytes) :
    SameHead (do let n ← readNumber 32; let k ← readNumber 10; return (n, k)) (first.length + 1) (first ++ 10 :: x)
      (first ++ 10 :: y) := by
  obtain ⟨a1, f, rfl, h1, h⟩ := space_split (n := 0) (List.count_pos_iff.mpr hsp)
  simp only [List.mem_append, List.mem_cons, not_or] at hnl
  have hf : (10 : UInt8) ∉ f := by tauto
  simp only [List.append_assoc, List.cons_append, List.length_append, List.length_cons]
  refine SameHead.cast ?_ (SameHead.number h1 fun _ => SameHead.number hf fun _ => SameHead.pure _ x y)
  omega

section
variable {F T : Type} [FloatText F]

theorem readTextDimsRaw_eq (lossy : Bool) (d : Bytes) (pos : Nat) :
    (readTextDimsRaw lossy d pos : Res (Embeddings T SimpleVocab (NdArray F) F)) =
      (do let n ← readNumber 32; let k ← readNumber 10; return (n, k) : Rd (Nat × Nat)) d pos >>= fun r =>
        readEmbeds (some r.1) lossy d r.2 := by
  unfold readTextDimsRaw
  simp only [bind_apply]
  cases readNumber 32 d pos with
  | ok a =>
    obtain ⟨n, p⟩ := a
    simp only [Res.ok_bind]
    cases readNumber 10 d p <;> rfl
  | err x => rfl
  | panic => rfl

/-! ## Theorems: text files with dimensions and floret files -/

/-- **C119** (text files with dimensions). If the first lines are the same, end with a line feed and have a space,
the lines after them may differ as in `c119_text`: the outcomes of all four readers are the same. Missing: other
first lines with the same numbers, see `c119_crlf_dims` and `c119_spaces_dims`. -/
theorem c119_text_dims_partial [Scalar F] (pre first d d' : Bytes) (hsp : (32 : UInt8) ∈ first)
    (hnl : (10 : UInt8) ∉ first) (ls ls' : List Bytes) (h1 : IsLines d ls)
    (h2 : IsLines d' ls') (h : List.Forall₂ SameTokens ls ls') (lossy : Bool) :
    (readTextDimsRaw lossy (pre ++ (first ++ 10 :: d)) pre.length : Res (Embeddings T SimpleVocab (NdArray F) F)) =
      readTextDimsRaw lossy (pre ++ (first ++ 10 :: d')) pre.length ∧
    (readTextDims lossy (pre ++ (first ++ 10 :: d)) pre.length : Res (Embeddings T SimpleVocab (NdArray F) F)) =
      readTextDims lossy (pre ++ (first ++ 10 :: d')) pre.length := by
  have : (readTextDimsRaw lossy (pre ++ (first ++ 10 :: d)) pre.length : Res (Embeddings T SimpleVocab (NdArray F) F)) =
      readTextDimsRaw lossy (pre ++ (first ++ 10 :: d')) pre.length := by
    obtain ⟨e1, e2⟩ := sameHead_dims hsp hnl d d' pre
    rw [readTextDimsRaw_eq, readTextDimsRaw_eq, ← e1]
    generalize hr : (do let n ← readNumber 32; let k ← readNumber 10; return (n, k) : Rd (Nat × Nat))
      (pre ++ (first ++ 10 :: d)) pre.length = r at e2 ⊢
    cases r with
    | ok r =>
      obtain ⟨r, q⟩ := r
      obtain rfl := e2 r q rfl
      simp only [Res.ok_bind]
      refine readEmbeds_congr ?_
      have hd : ∀ z : Bytes, (pre ++ (first ++ 10 :: z)).drop (pre.length + (first.length + 1)) = z := by
        intro z
        rw [show pre ++ (first ++ 10 :: z) = (pre ++ first ++ [10]) ++ z by simp]
        exact List.drop_left' (by simp)
      rw [hd, hd, ← h1.eq, ← h2.eq]
      exact h.imp fun _ _ hl => readTextLine_same hl lossy
    | err x => rfl
    | panic => rfl
  exact ⟨this, by unfold readTextDims; rw [this]⟩

/-- **C119** (floret files). If the first lines are the same, end with a line feed and have eight columns separated
by single spaces, the lines after them may differ as in `c119_text`: the outcome is the same. Missing: other first
lines with the same columns, see `c119_crlf_floret`. -/
theorem c119_floret_partial (pre first d d' : Bytes) (h7 : 7 ≤ first.count 32) (hnl : (10 : UInt8) ∉ first)
    (ls ls' : List Bytes) (h1 : IsLines d ls) (h2 : IsLines d' ls') (h : List.Forall₂ SameTokens ls ls') :
    (Embeddings.readFloret (pre ++ (first ++ 10 :: d)) pre.length : Res (Embeddings T FloretSubwordVocab (NdArray F) F)) =
      Embeddings.readFloret (pre ++ (first ++ 10 :: d')) pre.length := by
  obtain ⟨e1, e2⟩ := sameHead_floret h7 hnl d d' pre
  unfold Embeddings.readFloret
  rw [← e1]
  generalize hr : readFloretHead (pre ++ (first ++ 10 :: d)) pre.length = r at e2 ⊢
  cases r with
  | ok r =>
    obtain ⟨r, q⟩ := r
    obtain rfl := e2 r q rfl
    simp only [Res.ok_bind]
    have hd : ∀ z : Bytes, (pre ++ (first ++ 10 :: z)).drop (pre.length + (first.length + 1)) = z := by
      intro z
      rw [show pre ++ (first ++ 10 :: z) = (pre ++ first ++ [10]) ++ z by simp]
      exact List.drop_left' (by simp)
    rw [hd, hd, readFloretLines_text, readFloretLines_text, ← h1.eq, ← h2.eq,
      mapM_forall₂ (h.imp fun _ _ hl => readFloretLine_same hl r.embedLen)]
  | err x => rfl
  | panic => rfl

/-! ## Carriage returns in first lines -/

omit [FloatText F] in
theorem parseUsize_cr (s : Str) : parseUsize (s ++ ['\r']) = none := by
  have hm : '\r' ∈ stripPlus (s ++ ['\r']) := by
    cases s with
    | nil => decide
    | cons c t =>
      simp only [List.cons_append, stripPlus]
      split <;> simp
  unfold parseUsize
  rw [if_pos]
  right
  intro h
  have := List.all_eq_true.mp h _ hm
  exact absurd this (by decide)

omit [FloatText F] in
theorem parseUsize_space (s : Str) : parseUsize (' ' :: s) = none := by
  unfold parseUsize
  rw [if_pos]
  right
  simp [stripPlus, isDigitChar]

omit [FloatText F] in
theorem parseUsize_noNl {s : Str} {n : Nat} (h : parseUsize s = some n) : (10 : UInt8) ∉ utf8 s := by
  have hd : ∀ c ∈ stripPlus s, isDigitChar c = true := by
    unfold parseUsize at h
    simp only at h
    split at h
    · cases h
    · next hc =>
      have hc := not_or.mp hc
      exact List.all_eq_true.mp (Decidable.not_not.mp hc.2)
  refine not_mem_utf8_of (by decide) fun c hc hcc => ?_
  have h10 : (10 : UInt8).toNat = 10 := rfl
  cases s with
  | nil => simp at hc
  | cons x t =>
    simp only [stripPlus] at hd
    split at hd
    · next hx =>
      rcases List.mem_cons.mp hc with rfl | hc
      · subst hx; exact absurd hcc (by decide)
      · have := hd c hc
        simp only [isDigitChar, Bool.and_eq_true, decide_eq_true_eq] at this
        omega
    · have := hd c hc
      simp only [isDigitChar, Bool.and_eq_true, decide_eq_true_eq] at this
      omega

omit [FloatText F] in
theorem decodeToken_strict {a : Bytes} {s : Str} (h : decodeToken false a = .ok s) : utf8 s = a := by
  unfold decodeToken at h
  rw [if_neg (by simp)] at h
  cases hd : utf8Decode a with
  | none => rw [hd] at h; cases h
  | some t => rw [hd] at h; cases h; exact utf8_of_utf8Decode hd

/-- Reading does not go back. -/
def Forward {α : Type} (p : Rd α) : Prop := ∀ d pos r q, p d pos = .ok (r, q) → pos ≤ q

omit [FloatText F] in
theorem Forward.pure {α : Type} (a : α) : Forward (Pure.pure a : Rd α) := fun d pos r q h => by cases h; exact Nat.le_refl _

omit [FloatText F] in
theorem Forward.lift {α : Type} (x : Res α) : Forward (Rd.lift x) := fun d pos r q h => by
  cases x with
  | ok a => cases h; exact Nat.le_refl _
  | err e => cases h
  | panic => cases h

omit [FloatText F] in
theorem Forward.bind {α β : Type} {p : Rd α} {k : α → Rd β} (hp : Forward p) (hk : ∀ a, Forward (k a)) :
    Forward (p >>= k) := fun d pos r q h => by
  rw [bind_apply] at h
  obtain ⟨⟨a, q'⟩, h1, h2⟩ := Res.bind_eq_ok.mp h
  exact Nat.le_trans (hp _ _ _ _ h1) (hk _ _ _ _ _ h2)

omit [FloatText F] in
theorem Forward.token (delim : UInt8) (lossy : Bool) : Forward (readToken delim lossy) := by
  refine Forward.bind (fun d pos r q h => ?_) fun _ => Forward.lift _
  unfold readUntil at h
  cases h
  omega

omit [FloatText F] in
theorem Forward.number (delim : UInt8) : Forward (readNumber delim) :=
  Forward.bind (Forward.token _ _) fun _ => Forward.lift _

/-- What reading a first line with a carriage return before the line feed leads to. -/
def WithCr (p : Rd FloretHead) : Prop :=
  ∀ pre pre' d r q, p (pre ++ d) pre.length = .ok (r, q) → q < (pre ++ d).length → '\n' ∉ r.bow →
    ∃ q', p (pre' ++ crlf d) pre'.length = .ok ({ r with eow := r.eow ++ ['\r'] }, q') ∧
      (pre' ++ crlf d).drop q' = crlf ((pre ++ d).drop q)

omit [FloatText F] in
theorem WithCr.number {k : Nat → Rd FloretHead} (hk : ∀ n, WithCr (k n)) (hf : ∀ n, Forward (k n)) :
    WithCr (readNumber 32 >>= k) := by
  intro pre pre' d r q h hq hb
  rcases takeThrough_cases 32 d with ⟨a, rest, ha, rfl⟩ | hn
  · rw [number_step 32 k pre a rest ha] at h
    obtain ⟨s, hs, h⟩ := Res.bind_eq_ok.mp h
    obtain ⟨n, hn, h⟩ := Res.bind_eq_ok.mp h
    have hn' : parseUsize s = some n := by
      cases hp : parseUsize s with
      | none => rw [hp] at hn; cases hn
      | some m => rw [hp] at hn; cases hn; rfl
    have hnl : (10 : UInt8) ∉ a := decodeToken_strict hs ▸ parseUsize_noNl hn'
    have e : pre ++ (a ++ 32 :: rest) = (pre ++ a ++ [32]) ++ rest := by simp
    have e' : pre' ++ (a ++ 32 :: crlf rest) = (pre' ++ a ++ [32]) ++ crlf rest := by simp
    rw [e] at hq ⊢
    obtain ⟨q', h1, h2⟩ := hk n _ (pre' ++ a ++ [32]) _ _ _ h hq hb
    refine ⟨q', ?_, ?_⟩
    · rw [crlf_cons hnl (by decide), number_step 32 k pre' a _ ha, hs, Res.ok_bind, hn, Res.ok_bind, h1]
    · rw [crlf_cons hnl (by decide), e', h2]
  · rw [bind_apply] at h
    obtain ⟨⟨n, q1⟩, h1, h2⟩ := Res.bind_eq_ok.mp h
    unfold readNumber at h1
    rw [bind_apply, c54_eof 32 false pre d hn] at h1
    have hq1 : q1 = pre.length + d.length := by
      cases hd : decodeToken false d.dropLast with
      | ok s =>
        rw [hd] at h1
        simp only [Res.map, Res.ok_bind, Rd.lift] at h1
        cases hp : parseUsize s with
        | none => rw [hp] at h1; cases h1
        | some m => rw [hp] at h1; cases h1; rfl
      | err x => rw [hd] at h1; cases h1
      | panic => rw [hd] at h1; cases h1
    have := hf n _ _ _ _ h2
    simp only [List.length_append] at hq
    dsimp only at this
    omega

omit [FloatText F] in
theorem WithCr.markers (f : Str → Str → FloretHead) (hf : ∀ b e, (f b e).bow = b)
    (hf' : ∀ b e, f b (e ++ ['\r']) = { f b e with eow := (f b e).eow ++ ['\r'] }) :
    WithCr (readToken 32 false >>= fun b => readToken 10 false >>= fun e => Pure.pure (f b e)) := by
  have hlast : ∀ b, Forward (readToken 10 false >>= fun e => (Pure.pure (f b e) : Rd FloretHead)) := fun b =>
    Forward.bind (Forward.token _ _) fun _ => Forward.pure _
  intro pre pre' d r q h hq hb
  rcases takeThrough_cases 32 d with ⟨a, rest, ha, rfl⟩ | hn
  · rw [token_step 32 false _ pre a rest ha] at h
    obtain ⟨s, hs, h⟩ := Res.bind_eq_ok.mp h
    have e : pre ++ (a ++ 32 :: rest) = (pre ++ a ++ [32]) ++ rest := by simp
    rw [e] at hq ⊢
    rcases takeThrough_cases 10 rest with ⟨a2, rest, ha2, rfl⟩ | hn
    · rw [token_step 10 false _ _ a2 rest ha2] at h
      obtain ⟨s2, hs2, h⟩ := Res.bind_eq_ok.mp h
      cases h
      rw [hf] at hb
      have hnl : (10 : UInt8) ∉ a := by
        rw [← decodeToken_strict hs]
        refine not_mem_utf8_of (by decide) fun c hc hcc => hb ?_
        rwa [show c = '\n' from Char.ext (UInt32.toNat_inj.mp hcc)] at hc
      have hcr : (10 : UInt8) ∉ a2 ++ [13] := by simpa using ha2
      have e2 : (pre ++ a ++ [32]) ++ (a2 ++ 10 :: rest) = ((pre ++ a ++ [32]) ++ a2 ++ [10]) ++ rest := by simp
      have e3 : pre' ++ (a ++ 32 :: ((a2 ++ [13]) ++ 10 :: crlf rest)) =
        ((pre' ++ a ++ [32]) ++ (a2 ++ [13]) ++ [10]) ++ crlf rest := by simp
      refine ⟨((pre' ++ a ++ [32]) ++ (a2 ++ [13]) ++ [10]).length, ?_, ?_⟩
      · rw [crlf_cons hnl (by decide), crlf_line ha2, token_step 32 false _ pre' a _ ha, hs, Res.ok_bind,
          token_step 10 false _ _ _ _ hcr, decodeToken_cr, hs2]
        simp only [Res.map, Res.ok_bind]
        rw [hf']
        rfl
      · rw [crlf_cons hnl (by decide), crlf_line ha2, e3, List.drop_left, e2, List.drop_left]
    · rw [bind_apply, c54_eof 10 false _ rest hn] at h
      cases hd : decodeToken false rest.dropLast with
      | ok s =>
        rw [hd] at h
        simp only [Res.map, Res.ok_bind] at h
        cases h
        simp only [List.length_append] at hq
        omega
      | err x => rw [hd] at h; cases h
      | panic => rw [hd] at h; cases h
  · rw [bind_apply, c54_eof 32 false pre d hn] at h
    cases hd : decodeToken false d.dropLast with
    | ok s =>
      rw [hd] at h
      simp only [Res.map, Res.ok_bind] at h
      have := hlast s _ _ _ _ h
      simp only [List.length_append] at hq
      omega
    | err x => rw [hd] at h; cases h
    | panic => rw [hd] at h; cases h

omit [FloatText F] in
theorem readFloretHead_cr : WithCr readFloretHead := by
  have f2 : ∀ f : Str → Str → FloretHead, Forward (readToken 32 false >>= fun b => readToken 10 false >>= fun e =>
      (Pure.pure (f b e) : Rd FloretHead)) := fun f =>
    Forward.bind (Forward.token _ _) fun _ => Forward.bind (Forward.token _ _) fun _ => Forward.pure _
  have fs : ∀ {k : Nat → Rd FloretHead}, (∀ n, Forward (k n)) → Forward (readNumber 32 >>= k) := fun h =>
    Forward.bind (Forward.number _) h
  unfold readFloretHead
  refine WithCr.number (fun _ => WithCr.number (fun _ => WithCr.number (fun _ => WithCr.number (fun _ =>
    WithCr.number (fun _ => WithCr.number (fun _ => WithCr.markers _ (fun _ _ => rfl) fun _ _ => rfl)
    fun _ => f2 _) fun _ => fs fun _ => f2 _) fun _ => fs fun _ => fs fun _ => f2 _)
    fun _ => fs fun _ => fs fun _ => fs fun _ => f2 _) fun _ => fs fun _ => fs fun _ => fs fun _ => fs fun _ => f2 _)
    fun _ => fs fun _ => fs fun _ => fs fun _ => fs fun _ => fs fun _ => f2 _

/-- **C119 is false for floret files**: a file with carriage returns is accepted with the same rows, but the carriage
return of the first line becomes part of the marker of the end of words. -/
theorem c119_crlf_floret (pre d : Bytes) (e : Embeddings T FloretSubwordVocab (NdArray F) F)
    (h : Embeddings.readFloret (pre ++ d) pre.length = .ok e) (hb : '\n' ∉ e.vocab.bow) :
    Embeddings.readFloret (pre ++ crlf d) pre.length =
      .ok { e with vocab := { e.vocab with eow := e.vocab.eow ++ ['\r'] } } := by
  obtain ⟨hd, p, lines, rows, hhead, c1, c2, c3, c4, c5, hmem, hlines, hn1, hn2, hall, hmeta, hnorms, hst, hv⟩ :=
    (c60_accepts (pre ++ d) pre.length e).mp h
  obtain ⟨v1, v2, v3⟩ := SubwordVocab.newWithBoundaries_eq_ok.mp hv
  have hpos : 0 < hd.embedLen := Nat.pos_of_ne_zero c2
  have hp : p < (pre ++ d).length := by
    by_contra hp
    rw [List.drop_eq_nil_of_le (by omega)] at hlines
    have := hlines.eq
    rw [this] at hn1
    exact c1 (by rw [← hn1]; rfl)
  obtain ⟨q', h1, h2⟩ := readFloretHead_cr pre pre d hd p hhead hp (by rw [v3] at hb; exact hb)
  refine (c60_accepts _ _ _).mpr ⟨_, q', textLines (crlf ((pre ++ d).drop p)), rows, h1, c1, c2, c3, c4, c5, hmem,
    by rw [h2]; exact textLines_spec _, ?_, hn2, ?_, hmeta, hnorms, hst, ?_⟩
  · rw [← (crlf_textLines _).length_eq, ← hlines.eq, hn1]
  · intro i l' r hl' hr
    obtain ⟨e1, e2⟩ := List.forall₂_iff_get.mp (crlf_textLines ((pre ++ d).drop p))
    obtain ⟨hi, hl'⟩ := List.getElem?_eq_some_iff.mp hl'
    have hi' : i < (textLines ((pre ++ d).drop p)).length := by omega
    have h3 := e2 i hi' hi
    simp only [List.get_eq_getElem] at h3
    rw [hl'] at h3
    have h4 := hall i _ r (by rw [hlines.eq]; exact List.getElem?_eq_getElem hi') hr
    rcases h3 with h3 | h3
    · rw [h3]; exact h4
    · rw [h3]
      refine (readFloretLine_iff hpos).mp ?_
      rw [← readFloretLine_cr, stripLast_append]
      exact (readFloretLine_iff hpos).mpr h4
  · refine SubwordVocab.newWithBoundaries_eq_ok.mpr ⟨v1, v2, ?_⟩
    rw [v3]

/-- **C119 is false for text files with dimensions**: if a file is accepted, it is rejected with carriage returns. -/
theorem c119_crlf_dims (pre d : Bytes) (lossy : Bool) (e : Embeddings T SimpleVocab (NdArray F) F)
    (h : readTextDimsRaw lossy (pre ++ d) pre.length = .ok e) :
    (readTextDimsRaw lossy (pre ++ crlf d) pre.length : Res (Embeddings T SimpleVocab (NdArray F) F)) = .err .format := by
  rw [readTextDimsRaw_eq] at h ⊢
  have hend : ∀ (q : Nat) (z : Bytes) (n : Nat × Nat), z.length ≤ q →
      (readEmbeds (some n) lossy z q : Res (Embeddings T SimpleVocab (NdArray F) F)) ≠ .ok e := by
    intro q z n hq he
    unfold readEmbeds at he
    obtain ⟨_, -, he⟩ := Res.bind_eq_ok.mp he
    rw [List.drop_eq_nil_of_le hq] at he
    obtain ⟨rows, hr, he⟩ := Res.bind_eq_ok.mp he
    cases hr
    obtain ⟨_, hs, -⟩ := Res.bind_eq_ok.mp he
    unfold tableShape at hs
    simp only at hs
    split at hs
    · cases hs
    · next hn =>
      rw [if_pos (show n.1 = 0 from (Decidable.not_not.mp hn).symm)] at hs
      cases hs
  obtain ⟨⟨nk, q⟩, h1, h2⟩ := Res.bind_eq_ok.mp h
  have hf : Forward (do let n ← readNumber 32; let k ← readNumber 10; return (n, k) : Rd (Nat × Nat)) :=
    Forward.bind (Forward.number _) fun _ => Forward.bind (Forward.number _) fun _ => Forward.pure _
  have hf' : ∀ n, Forward (do let k ← readNumber 10; return (n, k) : Rd (Nat × Nat)) := fun n =>
    Forward.bind (Forward.number _) fun _ => Forward.pure _
  have hq : q < (pre ++ d).length := by
    by_contra hq
    exact hend q _ nk (by omega) h2
  rcases takeThrough_cases 32 d with ⟨a, rest, ha, rfl⟩ | hn
  · rw [number_step 32 _ pre a rest ha] at h1
    obtain ⟨s, hs, h1⟩ := Res.bind_eq_ok.mp h1
    obtain ⟨n, hn, h1⟩ := Res.bind_eq_ok.mp h1
    have hn' : parseUsize s = some n := by
      cases hp : parseUsize s with
      | none => rw [hp] at hn; cases hn
      | some m => rw [hp] at hn; cases hn; rfl
    have hnl : (10 : UInt8) ∉ a := decodeToken_strict hs ▸ parseUsize_noNl hn'
    rw [crlf_cons hnl (by decide), number_step 32 _ pre a _ ha, hs, Res.ok_bind, hn, Res.ok_bind]
    rcases takeThrough_cases 10 rest with ⟨a2, rest, ha2, rfl⟩ | hn2
    · rw [number_step 10 _ _ a2 rest ha2] at h1
      obtain ⟨s2, hs2, -⟩ := Res.bind_eq_ok.mp h1
      rw [crlf_line ha2, number_step 10 _ _ (a2 ++ [13]) _ (by simpa using ha2), decodeToken_cr, hs2]
      simp only [Res.map, Res.ok_bind, parseUsize_cr]
      rfl
    · exfalso
      rw [bind_apply] at h1
      obtain ⟨⟨k, q1⟩, h3, h4⟩ := Res.bind_eq_ok.mp h1
      unfold readNumber at h3
      rw [bind_apply, c54_eof 10 false _ rest hn2] at h3
      obtain ⟨⟨s3, q3⟩, h5, h6⟩ := Res.bind_eq_ok.mp h3
      have e5 : q3 = (pre ++ a ++ [32]).length + rest.length := by
        cases hd : decodeToken false rest.dropLast with
        | ok s => rw [hd] at h5; cases h5; rfl
        | err x => rw [hd] at h5; cases h5
        | panic => rw [hd] at h5; cases h5
      have e6 := Forward.lift (Res.ofOption .format (parseUsize s3)) _ _ _ _ h6
      have e7 := Forward.pure (n, k) _ _ _ _ h4
      simp only [List.length_append, List.length_cons, List.length_nil] at hq e5 e6 e7
      omega
  · exfalso
    rw [bind_apply] at h1
    obtain ⟨⟨k, q1⟩, h3, h4⟩ := Res.bind_eq_ok.mp h1
    unfold readNumber at h3
    rw [bind_apply, c54_eof 32 false _ d hn] at h3
    obtain ⟨⟨s3, q3⟩, h5, h6⟩ := Res.bind_eq_ok.mp h3
    have e5 : q3 = pre.length + d.length := by
      cases hd : decodeToken false d.dropLast with
      | ok s => rw [hd] at h5; cases h5; rfl
      | err x => rw [hd] at h5; cases h5
      | panic => rw [hd] at h5; cases h5
    have e6 := Forward.lift (Res.ofOption .format (parseUsize s3)) _ _ _ _ h6
    have e7 := hf' k _ _ _ _ h4
    simp only [List.length_append] at hq e5 e6 e7
    omega

omit [FloatText F] in
theorem utf8_space {s : Str} {b : Bytes} (h : utf8 s = 32 :: b) : ∃ t, s = ' ' :: t := by
  cases s with
  | nil => simp at h
  | cons c t =>
    have he : String.utf8EncodeChar c ++ utf8 t = 32 :: b := by
      rw [← h, show c :: t = [c] ++ t from rfl, utf8_append]
      simp
    have hc := (enc_length c).1
    cases hx : String.utf8EncodeChar c with
    | nil => rw [hx] at hc; simp at hc
    | cons x xs =>
      rw [hx, List.cons_append] at he
      have hx32 : x = 32 := (List.cons.inj he).1
      obtain ⟨h1, -⟩ := mem_utf8EncodeChar_ascii (c := c) (b := 32) (by rw [hx, hx32]; simp) (by decide)
      exact ⟨t, by rw [show c = ' ' from Char.ext (UInt32.toNat_inj.mp h1)]⟩

/-- **C119 is false for text files with dimensions**: two spaces after the first number are always rejected. -/
theorem c119_spaces_dims (pre a rest : Bytes) (ha : (32 : UInt8) ∉ a) (lossy : Bool) :
    (readTextDimsRaw lossy (pre ++ (a ++ 32 :: 32 :: rest)) pre.length :
      Res (Embeddings T SimpleVocab (NdArray F) F)) = .err .format := by
  have hdec : ∀ b, decodeToken false b = .err .format ∨ ∃ s, decodeToken false b = .ok s ∧ utf8 s = b := by
    intro b
    unfold decodeToken
    rw [if_neg (by simp)]
    cases hd : utf8Decode b with
    | none => exact .inl rfl
    | some s => exact .inr ⟨s, rfl, utf8_of_utf8Decode hd⟩
  rw [readTextDimsRaw_eq, number_step 32 _ pre a _ ha]
  rcases hdec a with h | ⟨s, h, -⟩
  · rw [h]; rfl
  rw [h, Res.ok_bind]
  cases parseUsize s with
  | none => rfl
  | some n =>
    rw [Res.ofOption_some, Res.ok_bind]
    rcases takeThrough_cases 10 (32 :: rest) with ⟨b, r, hb, hr⟩ | hn
    · rw [hr, number_step 10 _ _ b r hb]
      rcases hdec b with h | ⟨s, h, hs⟩
      · rw [h]; rfl
      have : ∃ b', b = 32 :: b' := by
        cases b with
        | nil => simp at hr
        | cons x b => exact ⟨b, by rw [List.cons_append] at hr; rw [(List.cons.inj hr).1]⟩
      obtain ⟨b', rfl⟩ := this
      obtain ⟨t, rfl⟩ := utf8_space hs
      rw [h, Res.ok_bind, parseUsize_space]
      rfl
    · rw [bind_apply]
      unfold readNumber
      rw [bind_apply, c54_eof 10 false _ _ hn]
      rcases hdec (32 :: rest).dropLast with h | ⟨s, h, hs⟩
      · rw [h]; rfl
      have : parseUsize s = none := by
        cases rest with
        | nil =>
          have : s = [] := by
            cases s with
            | nil => rfl
            | cons c t => exact absurd hs (utf8_ne_nil (by simp))
          subst this; rfl
        | cons x xs =>
          rw [List.dropLast_cons_cons] at hs
          obtain ⟨t, rfl⟩ := utf8_space hs
          exact parseUsize_space t
      rw [h]
      simp only [Res.map, Res.ok_bind, this]
      rfl

end

/-! ## Examples and counterexamples -/

attribute [local instance] exampleScalar exampleFloatText

/-- Outcome of reading a floret file of bit patterns: the rows, and the buckets whose vectors make up the vector of a
word. -/
def exampleFloretWord (s : String) (w : Str) : Res (List (List F32) × Option WordIndex) :=
  (Embeddings.readFloret (ascii s) 0 : Res (Embeddings Str FloretSubwordVocab (NdArray F32) F32)) >>= fun e =>
    (Vocab.idx e.vocab w).map fun v => (e.storage.inner.rows, v)

/-- **C119 is false**: the same file with the other line ends is rejected by the reader for text with dimensions, and
the floret reader gives another vector to a word. A second space in the first line is rejected by the former and
changes the vector with the latter. -/
theorem c119_false :
    (exampleTableDims "1 2\na 5 6\n" = .ok ([['a']], [[5, 6]]) ∧
      exampleTableDims "1 2\r\na 5 6\r\n" = .err .format ∧ exampleTableDims "1  2\na 5 6\n" = .err .format) ∧
    exampleFloretWord "2 1 3 3 1 7 < >\n0 5\n1 6\n" ['a'] = .ok ([[5], [6]], some (.subword [0, 0])) ∧
    exampleFloretWord "2 1 3 3 1 7 < >\r\n0 5\r\n1 6\r\n" ['a'] = .ok ([[5], [6]], some (.subword [1, 0, 1])) ∧
    exampleFloretWord "2 1 3 3 1 7  < >\n0 5\n1 6\n" ['a'] = .ok ([[5], [6]], some (.subword [0, 1, 1])) := by
  refine ⟨⟨?_, ?_, ?_⟩, ?_, ?_, ?_⟩ <;> decide +kernel

/-- Lines with the same columns: a tab, spaces around and a carriage return. -/
theorem exampleSameTokens : SameTokens (ascii "a 5 6") (ascii " a\t5  6 \r") :=
  ⟨"a 5 6".toList, " a\t5  6 \r".toList, [['a'], ['5'], ['6']], rfl, rfl,
    (parts_spec _ _).mp (by decide +kernel), (parts_spec _ _).mp (by decide +kernel)⟩

/-- Hypotheses of `c119_text`, `c119_text_dims_partial` and `c119_floret_partial`. -/
example := c119_text (T := Str) (F := F32) [120] [] (ascii "a 5 6\n") (ascii " a\t5  6 \r") [ascii "a 5 6"]
  [ascii " a\t5  6 \r"] ⟨by decide +kernel, .inl (by decide +kernel)⟩
  ⟨by decide +kernel, .inr ⟨[], _, rfl, by decide +kernel, rfl⟩⟩ (.cons exampleSameTokens .nil) true
example := c119_text_dims_partial (T := Str) (F := F32) [120] (ascii "1 2") (ascii "a 5 6\n") (ascii " a\t5  6 \r")
  (by decide +kernel) (by decide +kernel) [ascii "a 5 6"] [ascii " a\t5  6 \r"]
  ⟨by decide +kernel, .inl (by decide +kernel)⟩ ⟨by decide +kernel, .inr ⟨[], _, rfl, by decide +kernel, rfl⟩⟩
  (.cons exampleSameTokens .nil) true
example := c119_floret_partial (T := Str) (F := F32) [120] (ascii "1 2 3 6 1 7 < >") (ascii "a 5 6\n")
  (ascii " a\t5  6 \r") (by decide +kernel) (by decide +kernel) [ascii "a 5 6"] [ascii " a\t5  6 \r"]
  ⟨by decide +kernel, .inl (by decide +kernel)⟩ ⟨by decide +kernel, .inr ⟨[], _, rfl, by decide +kernel, rfl⟩⟩
  (.cons exampleSameTokens .nil)

/-- The files of these examples are accepted. -/
example : exampleTable "a 5 6\n" = .ok ([['a']], [[5, 6]]) ∧ exampleTable " a\t5  6 \r" = .ok ([['a']], [[5, 6]]) ∧
    exampleTableDims "1 2\n a\t5  6 \r" = .ok ([['a']], [[5, 6]]) ∧
    exampleFloretTable "1 2 3 6 1 7 < >\n a\t5  6 \r" = .ok [[5, 6]] := by
  decide +kernel

/-- `c119_crlf_text` for a file that is not valid UTF-8, at a position after the start. -/
example := c119_crlf_text (T := Str) (F := F32) [120] [0xE2, 0x82, 32, 53, 10, 98, 32, 54] true

/-- Hypotheses of `c119_crlf_floret`, `c119_crlf_dims` and `c119_spaces_dims`. -/
example : (Embeddings.readFloret ([] ++ crlf (ascii "2 1 3 3 1 7 < >\n0 5\n1 6")) 0 :
    Res (Embeddings Str FloretSubwordVocab (NdArray F32) F32)) =
    .ok ⟨none, ⟨⟨1, [[5], [6]]⟩⟩, ⟨['<'], ['>', '\r'], ⟨2, 7, 1⟩, indexMap [], [], 3, 3⟩, none⟩ :=
  c119_crlf_floret (T := Str) (F := F32) [] (ascii "2 1 3 3 1 7 < >\n0 5\n1 6")
    ⟨none, ⟨⟨1, [[5], [6]]⟩⟩, ⟨['<'], ['>'], ⟨2, 7, 1⟩, indexMap [], [], 3, 3⟩, none⟩ (by decide +kernel) (by decide)
example := c119_crlf_dims (T := Str) (F := F32) [] (ascii "1 2\na 5 6") false
  ⟨none, ⟨⟨2, [[5, 6]]⟩⟩, ⟨indexMap [['a']], [['a']]⟩, none⟩ (by decide +kernel)
example := c119_spaces_dims (T := Str) (F := F32) [120] (ascii "1") (ascii "2\na 5 6") (by decide +kernel) true

end FF
