import Verif.Props.MessagesCompat
import Verif.Props.MessageText
import Verif.Props.TextExact
import Verif.Props.Floret

/-!
# C111: what the readers of other formats say about contents that they do not accept
-/

namespace FF

open ERd

/-! ## Computations with whole errors -/

namespace ERes

theorem kinds_bind {α β : Type} {x : ERes α} {f : α → ERes β} {y : Res α} {g : α → Res β} (h : x.kinds = y)
    (hf : ∀ a, (f a).kinds = g a) : (x >>= f).kinds = y >>= g := by
  subst h
  cases x with
  | ok a => exact hf a
  | err e => rfl
  | panic => rfl

theorem kinds_quiet {α : Type} {r : Res α} (h : Res.NoErr r) : (ERes.quiet r).kinds = r := by
  cases r with
  | ok a => rfl
  | err e => exact absurd rfl (h e)
  | panic => rfl

theorem quiet_ne_err {α : Type} {r : Res α} (h : Res.NoErr r) (e : Error) : ERes.quiet r ≠ .err e := by
  cases r with
  | ok a => simp [ERes.quiet]
  | err x => exact absurd rfl (h x)
  | panic => simp [ERes.quiet]

theorem quiet_eq_ok {α : Type} {r : Res α} {a : α} : ERes.quiet r = .ok a ↔ r = .ok a := by
  cases r <;> simp [ERes.quiet]

theorem bind_eq_err {α β : Type} {x : ERes α} {f : α → ERes β} {e : Error} :
    x >>= f = .err e ↔ x = .err e ∨ ∃ a, x = .ok a ∧ f a = .err e := by
  cases x with
  | ok a =>
    show f a = _ ↔ _
    simp
  | err x =>
    show ERes.err x = _ ↔ _
    simp
  | panic =>
    show ERes.panic = _ ↔ _
    simp

theorem bind_eq_ok {α β : Type} {x : ERes α} {f : α → ERes β} {b : β} :
    x >>= f = .ok b ↔ ∃ a, x = .ok a ∧ f a = .ok b := by
  cases x with
  | ok a =>
    show f a = _ ↔ _
    simp
  | err x =>
    show ERes.err x = _ ↔ _
    simp
  | panic =>
    show ERes.panic = _ ↔ _
    simp

/-- What comes later fails in no case. -/
theorem bind_err_of {α β : Type} {x : ERes α} {f : α → ERes β} {e : Error} (h : ∀ a, f a ≠ .err e) :
    x >>= f = .err e ↔ x = .err e := by
  rw [bind_eq_err]
  constructor
  · rintro (h1 | ⟨a, _, h2⟩)
    · exact h1
    · exact absurd h2 (h a)
  · exact .inl

theorem kinds_each {α β : Type} {f : α → ERes β} {g : α → Res β} (h : ∀ a, (f a).kinds = g a) (l : List α) :
    (ERes.each f l).kinds = l.mapM g := by
  induction l with
  | nil => rfl
  | cons a l ih =>
    rw [List.mapM_cons]
    exact kinds_bind (h a) fun _ => kinds_bind ih fun _ => rfl

theorem each_ok {α β : Type} {f : α → ERes β} {l : List α} {ys : List β} :
    ERes.each f l = .ok ys ↔ l.map f = ys.map .ok := by
  induction l generalizing ys with
  | nil =>
    show ERes.ok [] = _ ↔ _
    cases ys <;> simp
  | cons a l ih =>
    refine (bind_eq_ok (x := f a)).trans ?_
    constructor
    · rintro ⟨b, h1, h2⟩
      obtain ⟨bs, h3, h4⟩ := (bind_eq_ok (x := ERes.each f l)).mp h2
      cases h4
      simp [h1, ih.mp h3]
    · intro h
      cases ys with
      | nil => simp at h
      | cons y ys =>
        simp only [List.map_cons, List.cons.injEq] at h
        exact ⟨y, h.1, (bind_eq_ok (x := ERes.each f l)).mpr ⟨ys, ih.mpr h.2, rfl⟩⟩

theorem each_err {α β : Type} {f : α → ERes β} {l : List α} {e : Error} :
    ERes.each f l = .err e ↔
      ∃ before x after, l = before ++ x :: after ∧ (∀ b ∈ before, ∃ y, f b = .ok y) ∧ f x = .err e := by
  induction l with
  | nil =>
    show ERes.ok [] = _ ↔ _
    simp
  | cons a l ih =>
    refine (bind_eq_err (x := f a)).trans ?_
    constructor
    · rintro (h | ⟨b, h1, h2⟩)
      · exact ⟨[], a, l, rfl, by simp, h⟩
      · rcases (bind_eq_err (x := ERes.each f l)).mp h2 with h3 | ⟨_, _, h4⟩
        · obtain ⟨before, x, after, rfl, h5, h6⟩ := ih.mp h3
          refine ⟨a :: before, x, after, rfl, ?_, h6⟩
          intro c hc
          rcases List.mem_cons.mp hc with rfl | hc
          · exact ⟨b, h1⟩
          · exact h5 c hc
        · cases h4
    · rintro ⟨before, x, after, h, h1, h2⟩
      cases before with
      | nil => cases h; exact .inl h2
      | cons c before =>
        simp only [List.cons_append, List.cons.injEq] at h
        obtain ⟨rfl, rfl⟩ := h
        obtain ⟨y, hy⟩ := h1 a (by simp)
        exact .inr ⟨y, hy, (bind_eq_err (x := ERes.each f _)).mpr
          (.inl (ih.mpr ⟨before, x, after, rfl, fun b hb => h1 b (by simp [hb]), h2⟩))⟩

end ERes

section
variable [ErrorText]

theorem kinds_decodeToken (lossy : Bool) (bs : Bytes) : (ERd.decodeToken lossy bs).kinds = FF.decodeToken lossy bs := by
  unfold ERd.decodeToken FF.decodeToken
  split
  · rfl
  · cases utf8Decode bs <;> rfl

omit [ErrorText] in
theorem utf8Decode_none {bs : Bytes} : utf8Decode bs = none ↔ ∀ s, utf8 s ≠ bs := by
  constructor
  · rintro h s rfl
    rw [utf8Decode_utf8] at h; cases h
  · intro h
    cases hd : utf8Decode bs with
    | none => rfl
    | some s => exact absurd (utf8_of_utf8Decode hd) (h s)

omit [ErrorText] in
theorem utf8Decode_some {bs : Bytes} {s : Str} : utf8Decode bs = some s ↔ utf8 s = bs :=
  ⟨utf8_of_utf8Decode, by rintro rfl; exact utf8Decode_utf8 s⟩

/-! ## C111, lines of text files -/

/-- Specification: the text of a line, for the strict and the lossy readers. -/
def LineText (lossy : Bool) (line : Bytes) (s : Str) : Prop :=
  if lossy then s = utf8Lossy line else utf8 s = line

/-- Specification: what is said of a line that does not have the form of a word and numbers. Of several components that are
not numbers, it is about the first. -/
def LineMessage [ParseText] (F : Type) [FloatText F] (lossy : Bool) (line : Bytes) (e : Error) : Prop :=
  (lossy = false ∧ (∀ s, utf8 s ≠ line) ∧ e = .format ("Token contains invalid UTF-8: " ++ ErrorText.utf8 line)) ∨
  ∃ s, LineText lossy line s ∧
    (TokensOf s [] ∧ e = .format "Spurious empty line" ∨
     ∃ word numbers p rest, TokensOf s (word :: (numbers ++ p :: rest)) ∧
       (∀ n ∈ numbers, (FloatText.parse n : Option F) ≠ none) ∧ (FloatText.parse p : Option F) = none ∧
       e = .format ("Cannot parse vector component '" ++ String.ofList p ++ "': " ++ ParseText.float p))

/-- Specification: a line with a word and `k` numbers. -/
def GoodLine (F : Type) [FloatText F] (lossy : Bool) (line : Bytes) (k : Nat) : Prop :=
  ∃ s word numbers, LineText lossy line s ∧ TokensOf s (word :: numbers) ∧
    (∀ n ∈ numbers, (FloatText.parse n : Option F) ≠ none) ∧ numbers.length = k

theorem decodeToken_eq_ok {lossy : Bool} {line : Bytes} {s : Str} :
    ERd.decodeToken lossy line = .ok s ↔ LineText lossy line s := by
  unfold ERd.decodeToken LineText
  cases lossy with
  | true => simp [eq_comm]
  | false =>
    simp only [Bool.false_eq_true, if_false]
    rw [← utf8Decode_some]
    cases utf8Decode line <;> simp

theorem decodeToken_eq_err {lossy : Bool} {line : Bytes} {e : Error} : ERd.decodeToken lossy line = .err e ↔
    lossy = false ∧ (∀ s, utf8 s ≠ line) ∧ e = .format ("Token contains invalid UTF-8: " ++ ErrorText.utf8 line) := by
  unfold ERd.decodeToken
  cases lossy with
  | true => simp
  | false =>
    simp only [Bool.false_eq_true, if_false]
    rw [← utf8Decode_none]
    cases utf8Decode line <;> simp [eq_comm]

variable [ParseText] {T F : Type}

omit [ErrorText] in
theorem parseComponent_ok [FloatText F] {p : Str} :
    (∃ x : F, ERd.parseComponent p = .ok x) ↔ (FloatText.parse p : Option F) ≠ none := by
  unfold ERd.parseComponent
  cases (FloatText.parse p : Option F) <;> simp

omit [ErrorText] in
theorem parseComponent_err [FloatText F] {p : Str} {e : Error} : (ERd.parseComponent p : ERes F) = .err e ↔
    (FloatText.parse p : Option F) = none ∧
      e = .format ("Cannot parse vector component '" ++ String.ofList p ++ "': " ++ ParseText.float p) := by
  unfold ERd.parseComponent
  cases (FloatText.parse p : Option F) <;> simp [eq_comm]

omit [ErrorText] in
theorem eachComponent_ok [FloatText F] {ps : List Str} :
    (∃ xs : List F, ERes.each ERd.parseComponent ps = .ok xs) ↔ ∀ p ∈ ps, (FloatText.parse p : Option F) ≠ none := by
  induction ps with
  | nil => exact ⟨by simp, fun _ => ⟨[], rfl⟩⟩
  | cons p ps ih =>
    constructor
    · rintro ⟨xs, h⟩
      rw [ERes.each_ok] at h
      cases xs with
      | nil => simp at h
      | cons x xs =>
        simp only [List.map_cons, List.cons.injEq] at h
        intro q hq
        rcases List.mem_cons.mp hq with rfl | hq
        · exact parseComponent_ok.mp ⟨x, h.1⟩
        · exact ih.mp ⟨xs, ERes.each_ok.mpr h.2⟩ q hq
    · intro h
      obtain ⟨x, hx⟩ := parseComponent_ok.mpr (h p (by simp))
      obtain ⟨xs, hxs⟩ := ih.mpr fun q hq => h q (by simp [hq])
      refine ⟨x :: xs, ERes.each_ok.mpr ?_⟩
      rw [ERes.each_ok] at hxs
      simp [hx, hxs]

theorem readTextLine_err [FloatText F] {lossy : Bool} {line : Bytes} {e : Error} :
    (ERd.readTextLine lossy line : ERes (Str × List F)) = .err e ↔ LineMessage F lossy line e := by
  unfold ERd.readTextLine LineMessage
  refine (ERes.bind_eq_err (x := ERd.decodeToken lossy line)).trans ?_
  rw [decodeToken_eq_err]
  refine or_congr Iff.rfl (exists_congr fun s => ?_)
  rw [decodeToken_eq_ok]
  refine and_congr Iff.rfl ?_
  simp only [← parts_spec]
  cases hp : parts s with
  | nil => simp [eq_comm]
  | cons w ps =>
    refine (ERes.bind_eq_err (x := ERes.each ERd.parseComponent ps)).trans ?_
    rw [ERes.each_err]
    constructor
    · rintro (⟨before, x, after, rfl, h1, h2⟩ | ⟨_, _, h⟩)
      · exact .inr ⟨w, before, x, after, rfl, fun n hn => parseComponent_ok.mp (h1 n hn), parseComponent_err.mp h2⟩
      · cases h
    · rintro (⟨h, _⟩ | ⟨word, numbers, p, rest, h1, h2, h3⟩)
      · cases h
      · cases h1
        exact .inl ⟨numbers, p, rest, rfl, fun n hn => parseComponent_ok.mpr (h2 n hn), parseComponent_err.mpr h3⟩

theorem readTextLine_ok [FloatText F] {lossy : Bool} {line : Bytes} {k : Nat} :
    (∃ r : Str × List F, ERd.readTextLine lossy line = .ok r ∧ r.2.length = k) ↔ GoodLine F lossy line k := by
  unfold ERd.readTextLine GoodLine
  constructor
  · rintro ⟨r, h, rfl⟩
    obtain ⟨s, h1, h2⟩ := (ERes.bind_eq_ok (x := ERd.decodeToken lossy line)).mp h
    cases hp : parts s with
    | nil => rw [hp] at h2; cases h2
    | cons w ps =>
      rw [hp] at h2
      obtain ⟨xs, h3, h4⟩ := (ERes.bind_eq_ok (x := ERes.each ERd.parseComponent ps)).mp h2
      cases h4
      refine ⟨s, w, ps, decodeToken_eq_ok.mp h1, (parts_spec _ _).mp hp, eachComponent_ok.mp ⟨xs, h3⟩, ?_⟩
      simpa using congrArg List.length (ERes.each_ok.mp h3)
  · rintro ⟨s, w, ps, h1, h2, h3, rfl⟩
    obtain ⟨xs, hx⟩ := eachComponent_ok.mpr h3
    refine ⟨(trimBy isAsciiWs w, xs), ?_, by simpa using (congrArg List.length (ERes.each_ok.mp hx)).symm⟩
    rw [decodeToken_eq_ok.mpr h1, ← parts_spec] at *
    show (match parts s with
      | [] => ERes.err (.format "Spurious empty line")
      | word :: ps => (ERes.each ERd.parseComponent ps).bind fun xs => .ok (trimBy isAsciiWs word, xs)) = _
    rw [h2]
    show (ERes.each ERd.parseComponent ps).bind _ = _
    rw [hx]
    rfl

/-! ## C111, tables -/

/-- Specification: what is said of a table with `n` lines that are all good and have `k` numbers together, if the first line
of the file announces a shape, or if there is no such line. -/
def ShapeMessage (n k : Nat) (e : Error) : Option (Nat × Nat) → Prop
  | some (words, dims) =>
    n ≠ words ∧ e = .format ("Incorrect vocabulary size, expected: " ++ number words ++ ", got: " ++ number n) ∨
    n = words ∧ 0 < n ∧ k / n ≠ dims ∧
      e = .format ("Incorrect embedding dimensionality, expected: " ++ number dims ++ ", got: " ++ number (k / n)) ∨
    n = words ∧ 0 < n ∧ k / n = dims ∧ ¬ n ∣ k ∧ e = .matrixShape
  | none => 0 < n ∧ ¬ n ∣ k ∧ e = .matrixShape

omit [ErrorText] [ParseText] in
theorem shape_err {α : Type} {shape : Option (Nat × Nat)} {n : Nat} {data : List α} {e : Error} :
    (ERd.tableShape shape n data.length >>= fun s => ERd.fromShapeVec s data) = .err e ↔
      ShapeMessage n data.length e shape := by
  have hdvd : ∀ {n k : Nat}, 0 < n → (¬ n ∣ k ↔ ¬ k = n * (k / n)) := by
    intro n k hn
    refine not_congr ⟨fun h => (Nat.mul_div_cancel' h).symm, fun h => ⟨_, h⟩⟩
  rw [ERes.bind_eq_err]
  unfold ERd.tableShape ERd.fromShapeVec ShapeMessage
  cases shape with
  | none =>
    dsimp only
    by_cases hn : n = 0
    · simp [hn]
    · rw [if_neg hn, hdvd (by omega)]
      constructor
      · rintro (h | ⟨a, h1, h2⟩)
        · cases h
        · cases h1
          dsimp only at h2
          split at h2
          · cases h2
          · rename_i h3; cases h2; exact ⟨by omega, h3, rfl⟩
      · rintro ⟨_, h1, rfl⟩
        exact .inr ⟨_, rfl, if_neg h1⟩
  | some p =>
    obtain ⟨words, dims⟩ := p
    dsimp only
    by_cases hn : n = words
    · subst hn
      rw [if_neg (by simp)]
      by_cases h0 : n = 0
      · simp [h0]
      · rw [if_neg h0, hdvd (by omega)]
        by_cases hd : data.length / n = dims
        · rw [if_neg (by simpa using hd)]
          constructor
          · rintro (h | ⟨a, h1, h2⟩)
            · cases h
            · cases h1
              dsimp only at h2
              split at h2
              · cases h2
              · rename_i h3; cases h2; exact .inr (.inr ⟨rfl, by omega, hd, by rw [hd]; exact h3, rfl⟩)
          · rintro (⟨h, _⟩ | ⟨_, _, h, _⟩ | ⟨_, _, _, h, rfl⟩)
            · exact absurd rfl h
            · exact absurd hd h
            · exact .inr ⟨_, rfl, if_neg (by rw [← hd]; exact h)⟩
        · rw [if_pos hd]
          constructor
          · rintro (h | ⟨a, h1, _⟩)
            · cases h; exact .inr (.inl ⟨rfl, by omega, hd, rfl⟩)
            · cases h1
          · rintro (⟨h, _⟩ | ⟨_, _, _, rfl⟩ | ⟨_, _, h, _⟩)
            · exact absurd rfl h
            · exact .inl rfl
            · exact absurd h hd
    · rw [if_pos hn]
      constructor
      · rintro (h | ⟨a, h1, _⟩)
        · cases h; exact .inl ⟨hn, rfl⟩
        · cases h1
      · rintro (⟨_, rfl⟩ | ⟨h, _⟩ | ⟨h, _⟩)
        · exact .inl rfl
        · exact absurd h hn
        · exact absurd h hn

/-- Specification: lines with a word and numbers each, together `k` numbers. -/
inductive GoodLines (F : Type) [FloatText F] (lossy : Bool) : List Bytes → Nat → Prop
  | nil : GoodLines F lossy [] 0
  | cons {l : Bytes} {ls : List Bytes} {j k : Nat} : GoodLine F lossy l j → GoodLines F lossy ls k →
      GoodLines F lossy (l :: ls) (j + k)

/-- Specification: what is said of the lines of a table: about the first line that is not good, otherwise about the shape. -/
def TableMessage (F : Type) [FloatText F] (lossy : Bool) (shape : Option (Nat × Nat)) (bs : Bytes) (e : Error) : Prop :=
  ∃ ls, IsLines bs ls ∧
    ((∃ before l after, ls = before ++ l :: after ∧ (∀ b ∈ before, ∃ k, GoodLine F lossy b k) ∧ LineMessage F lossy l e) ∨
     ∃ k, GoodLines F lossy ls k ∧ ShapeMessage ls.length k e shape)

theorem eachLine_ok [FloatText F] {lossy : Bool} {ls : List Bytes} {rows : List (Str × List F)}
    (h : ERes.each (ERd.readTextLine lossy) ls = .ok rows) :
    GoodLines F lossy ls (rows.map fun r => r.2.length).sum := by
  rw [ERes.each_ok] at h
  induction ls generalizing rows with
  | nil =>
    cases rows with
    | nil => exact .nil
    | cons _ _ => simp at h
  | cons l ls ih =>
    cases rows with
    | nil => simp at h
    | cons r rows =>
      simp only [List.map_cons, List.cons.injEq] at h
      simpa using GoodLines.cons (readTextLine_ok.mp ⟨r, h.1, rfl⟩) (ih h.2)

theorem eachLine_of [FloatText F] {lossy : Bool} {ls : List Bytes} {k : Nat} (h : GoodLines F lossy ls k) :
    ∃ rows : List (Str × List F), ERes.each (ERd.readTextLine lossy) ls = .ok rows ∧ 
      (rows.map fun r => r.2.length).sum = k := by
  induction h with
  | nil => exact ⟨[], rfl, rfl⟩
  | cons h _ ih =>
    obtain ⟨rows, h1, h2⟩ := ih
    obtain ⟨r, h3, h4⟩ := readTextLine_ok.mpr h
    refine ⟨r :: rows, ERes.each_ok.mpr ?_, by simp [h2, h4]⟩
    rw [ERes.each_ok] at h1
    simp [h1, h3]

omit [ErrorText] [ParseText] in
theorem rows_sum (rows : List (Str × List F)) :
    (rows.map (·.2)).flatten.length = (rows.map fun r => r.2.length).sum := by
  rw [List.length_flatten, List.map_map]; rfl

theorem readEmbeds_err [FloatText F] {shape : Option (Nat × Nat)} {lossy : Bool} {d : Bytes} {pos : Nat} {e : Error}
    (ha : Embeddings.allocTable shape = .ok ()) :
    (ERd.readEmbeds shape lossy d pos : ERes (Embeddings T SimpleVocab (NdArray F) F)) = .err e ↔
      TableMessage F lossy shape (d.drop pos) e := by
  unfold ERd.readEmbeds
  rw [ha]
  show (ERes.each (ERd.readTextLine (F := F) lossy) (textLines (d.drop pos)) >>= _) = ERes.err e ↔ _
  have hlater : ∀ rows : List (Str × List F),
      ((do
        let s ← ERd.tableShape shape rows.length (rows.map (·.2)).flatten.length
        let m ← ERd.fromShapeVec s (rows.map (·.2)).flatten
        let vocab ← ERes.quiet (SimpleVocab.new (rows.map (·.1)))
        ERes.quiet (Embeddings.newWithMaybeNorms none vocab (NdArray.mk m) none) :
          ERes (Embeddings T SimpleVocab (NdArray F) F)) = .err e) ↔
        ShapeMessage rows.length (rows.map fun r => r.2.length).sum e shape := by
    intro rows
    rw [← rows_sum, ← shape_err, ERes.bind_eq_err, ERes.bind_eq_err]
    refine or_congr Iff.rfl (exists_congr fun s => and_congr Iff.rfl (ERes.bind_err_of fun m => ?_))
    intro hm
    rcases ERes.bind_eq_err.mp hm with h | ⟨_, _, h⟩
    · exact ERes.quiet_ne_err (noErr_simple _) _ h
    · exact ERes.quiet_ne_err (noErr_newWithMaybeNorms (fun _ => Res.noErr_ok _) _ _ _ _) _ h
  rw [ERes.bind_eq_err, ERes.each_err]
  constructor
  · rintro (⟨before, x, after, h1, h2, h3⟩ | ⟨rows, h1, h2⟩)
    · refine ⟨_, textLines_spec _, .inl ⟨before, x, after, h1, fun b hb => ?_, readTextLine_err.mp h3⟩⟩
      obtain ⟨y, hy⟩ := h2 b hb
      exact ⟨_, readTextLine_ok.mp ⟨y, hy, rfl⟩⟩
    · refine ⟨_, textLines_spec _, .inr ⟨_, eachLine_ok h1, ?_⟩⟩
      have : (textLines (d.drop pos)).length = rows.length := by
        simpa using congrArg List.length (ERes.each_ok.mp h1)
      rw [this]
      exact (hlater rows).mp h2
  · rintro ⟨ls, hls, ⟨before, x, after, h1, h2, h3⟩ | ⟨ks, h1, h2⟩⟩
    · cases hls.eq
      refine .inl ⟨before, x, after, h1, fun b hb => ?_, readTextLine_err.mpr h3⟩
      obtain ⟨k, hk⟩ := h2 b hb
      obtain ⟨r, hr, _⟩ := readTextLine_ok.mpr hk
      exact ⟨r, hr⟩
    · cases hls.eq
      obtain ⟨rows, h3, rfl⟩ := eachLine_of h1
      refine .inr ⟨rows, h3, (hlater rows).mpr ?_⟩
      have : (textLines (d.drop pos)).length = rows.length := by
        simpa using congrArg List.length (ERes.each_ok.mp h3)
      rw [← this]
      exact h2

theorem kinds_readEmbeds [FloatText F] (shape : Option (Nat × Nat)) (lossy : Bool) (d : Bytes) (pos : Nat) :
    (ERd.readEmbeds shape lossy d pos : ERes (Embeddings T SimpleVocab (NdArray F) F)).kinds =
      Embeddings.readEmbeds shape lossy d pos := by
  have hp : ∀ p : Str, (ERd.parseComponent p : ERes F).kinds = Res.ofOption .format (FloatText.parse p) := by
    intro p; unfold ERd.parseComponent
    cases (FloatText.parse p : Option F) <;> rfl
  refine ERes.kinds_bind (ERes.kinds_quiet ?_) fun _ => ERes.kinds_bind (ERes.kinds_each (fun l => ?_) _) fun rows =>
    ERes.kinds_bind ?_ fun s => ERes.kinds_bind ?_ fun m => ERes.kinds_bind (ERes.kinds_quiet (noErr_simple _)) fun _ =>
    ERes.kinds_quiet (noErr_newWithMaybeNorms (fun _ => Res.noErr_ok _) _ _ _ _)
  · unfold Embeddings.allocTable
    cases shape with
    | none => exact Res.noErr_ok _
    | some p => exact Res.noErr_bind (Res.noErr_assert _) fun _ => Res.noErr_assert _
  · refine ERes.kinds_bind (kinds_decodeToken _ _) fun line => ?_
    cases parts line with
    | nil => rfl
    | cons w ps => exact ERes.kinds_bind (ERes.kinds_each hp _) fun _ => rfl
  · unfold ERd.tableShape Embeddings.tableShape
    cases shape with
    | none => dsimp only; split <;> rfl
    | some p =>
      dsimp only
      split
      · rfl
      · split
        · rfl
        · split <;> rfl
  · unfold ERd.fromShapeVec Embeddings.fromShapeVec
    split <;> rfl

/-- **C111**, text files without a first line with the shape. -/
theorem c111_text [Scalar F] [FloatText F] (lossy : Bool) (d : Bytes) (pos : Nat) :
    (ERd.readText lossy d pos : ERes (Embeddings T SimpleVocab (NdArray F) F)).kinds = Embeddings.readText lossy d pos ∧
    ∀ e, (ERd.readText lossy d pos : ERes (Embeddings T SimpleVocab (NdArray F) F)) = .err e ↔
      TableMessage F lossy none (d.drop pos) e :=
  ⟨ERes.kinds_bind (kinds_readEmbeds _ _ _ _) fun _ => ERes.kinds_quiet (noErr_normalizeRead _),
    fun _ => (ERes.bind_err_of fun _ => ERes.quiet_ne_err (noErr_normalizeRead _) _).trans (readEmbeds_err rfl)⟩

/-! ## C111, the first line -/

/-- Specification: the token `t` that ends with `delim` is at `p`, and `q` is behind it; or there is no `delim` any more, and
the token is everything up to the end but the last byte. -/
def TokenAt (delim : UInt8) (d : Bytes) (p : Nat) (t : Bytes) (q : Nat) : Prop :=
  delim ∉ t ∧ (∃ rest, d.drop p = t ++ delim :: rest) ∧ q = p + t.length + 1 ∨
    delim ∉ d.drop p ∧ t = (d.drop p).dropLast ∧ q = p + (d.drop p).length

/-- Specification: what is said of a token that is not UTF-8. -/
def TokenMessage (t : Bytes) (e : Error) : Prop :=
  (∀ s, utf8 s ≠ t) ∧ e = .format ("Token contains invalid UTF-8: " ++ ErrorText.utf8 t)

/-- Specification: the decimal text of a number, perhaps with a plus sign. -/
def NumberText (s : Str) (n : Nat) : Prop := ∃ ds, (s = ds ∨ s = '+' :: ds) ∧ Decimal ds n ∧ n < 2 ^ 64

/-- Specification: what is said of a token that is not a number of 64 bits. -/
def NumberMessage (t : Bytes) (e : Error) : Prop :=
  TokenMessage t e ∨ ∃ s, utf8 s = t ∧ (∀ n, ¬ NumberText s n) ∧
    e = .format ("Cannot parse shape component '" ++ String.ofList s ++ "': " ++ ParseText.integer s)

omit [ErrorText] [ParseText] in
theorem TokenAt.takeThrough {delim : UInt8} {d t : Bytes} {p q : Nat} (h : TokenAt delim d p t q) :
    (takeThrough delim (d.drop p)).dropLast = t ∧ p + (FF.takeThrough delim (d.drop p)).length = q := by
  rcases h with ⟨h1, ⟨rest, h2⟩, rfl⟩ | ⟨h1, rfl, rfl⟩
  · rw [h2, takeThrough_append h1]
    simp [Nat.add_assoc]
  · rw [takeThrough_none h1]
    exact ⟨rfl, rfl⟩

omit [ParseText] in
theorem TokenAt.read {delim : UInt8} {d t : Bytes} {p q : Nat} (h : TokenAt delim d p t q) (lossy : Bool) :
    ERd.readToken delim lossy d p = (ERd.decodeToken lossy t).bind fun s => .ok (s, q) := by
  rw [ERd.readToken_eq rfl, h.takeThrough.1, h.takeThrough.2]

omit [ParseText] in
theorem TokenAt.strict_err {delim : UInt8} {d t : Bytes} {p q : Nat} {e : Error} (h : TokenAt delim d p t q) :
    ERd.readToken delim false d p = .err e ↔ TokenMessage t e := by
  rw [h.read]
  refine (ERes.bind_eq_err (x := ERd.decodeToken false t)).trans ?_
  rw [decodeToken_eq_err]
  constructor
  · rintro (⟨_, h⟩ | ⟨_, _, h⟩)
    · exact h
    · cases h
  · exact fun h => .inl ⟨rfl, h⟩

theorem TokenAt.number_err {delim : UInt8} {d t : Bytes} {p q : Nat} {e : Error} (h : TokenAt delim d p t q) :
    ERd.readNumber delim d p = .err e ↔ NumberMessage t e := by
  unfold ERd.readNumber
  rw [ERd.bind_apply]
  refine (ERes.bind_eq_err (x := ERd.readToken delim false d p)).trans ?_
  rw [h.strict_err]
  refine or_congr Iff.rfl ?_
  have hnone : ∀ s, parseUsize s = none ↔ ∀ n, ¬ NumberText s n := by
    intro s
    constructor
    · intro hs n hn
      rw [(c54_decimal s n).mpr hn] at hs
      cases hs
    · intro hs
      cases hp : parseUsize s with
      | none => rfl
      | some n => exact absurd ((c54_decimal s n).mp hp) (hs n)
  constructor
  · rintro ⟨⟨s, q'⟩, h1, h2⟩
    rw [h.read] at h1
    obtain ⟨s', h3, h4⟩ := (ERes.bind_eq_ok (x := ERd.decodeToken false t)).mp h1
    cases h4
    have h3 : utf8 s = t := decodeToken_eq_ok.mp h3
    cases hp : parseUsize s with
    | none =>
      simp [ERd.named, Rd.lift, hp, Res.ofOption] at h2
      exact ⟨s, h3, (hnone s).mp hp, h2.symm⟩
    | some n => simp [ERd.named, Rd.lift, hp, Res.ofOption] at h2
  · rintro ⟨s, h1, h2, rfl⟩
    refine ⟨(s, q), ?_, ?_⟩
    · rw [h.read, show ERd.decodeToken false t = .ok s from decodeToken_eq_ok.mpr h1]
      rfl
    · simp [ERd.named, Rd.lift, (hnone s).mpr h2, Res.ofOption]

/-- **C111**, numbers in the first lines: the text that is not a number is quoted. -/
theorem c111_number (delim : UInt8) (d : Bytes) (p : Nat) :
    (ERd.readNumber delim d p).kinds = FF.readNumber delim d p ∧ ∃ t q, TokenAt delim d p t q ∧
      ∀ e, ERd.readNumber delim d p = .err e ↔ NumberMessage t e := by
  refine ⟨kindOf_number delim d p, ?_⟩
  have : ∃ t q, TokenAt delim d p t q := by
    by_cases h : delim ∈ d.drop p
    · obtain ⟨s, rest, h1, h2⟩ := List.eq_append_cons_of_mem h
      exact ⟨s, _, .inl ⟨h2, ⟨rest, h1⟩, rfl⟩⟩
    · exact ⟨_, _, .inr ⟨h, rfl, rfl⟩⟩
  obtain ⟨t, q, h⟩ := this
  exact ⟨t, q, h, fun _ => h.number_err⟩

/-- Specification: what is said of a first line with the numbers of words and components. -/
def ShapeLineMessage (d : Bytes) (p : Nat) (e : Error) : Prop :=
  ∃ t q, TokenAt 32 d p t q ∧ (NumberMessage t e ∨
    (∃ s n, utf8 s = t ∧ NumberText s n) ∧ ∃ t' q', TokenAt 10 d q t' q' ∧ NumberMessage t' e)

/-- Specification: a first line with the numbers of words and components, `q` is behind it. -/
def ShapeLine (d : Bytes) (p words dims q : Nat) : Prop :=
  ∃ s s' p', NumberText s words ∧ NumberText s' dims ∧ TokenAt 32 d p (utf8 s) p' ∧ TokenAt 10 d p' (utf8 s') q

omit [ErrorText] [ParseText] in
theorem exists_tokenAt (delim : UInt8) (d : Bytes) (p : Nat) : ∃ t q, TokenAt delim d p t q := by
  by_cases h : delim ∈ d.drop p
  · obtain ⟨s, rest, h1, h2⟩ := List.eq_append_cons_of_mem h
    exact ⟨s, _, .inl ⟨h2, ⟨rest, h1⟩, rfl⟩⟩
  · exact ⟨_, _, .inr ⟨h, rfl, rfl⟩⟩

omit [ErrorText] [ParseText] in
theorem TokenAt.unique {delim : UInt8} {d t t' : Bytes} {p q q' : Nat} (h : TokenAt delim d p t q)
    (h' : TokenAt delim d p t' q') : t = t' ∧ q = q' :=
  ⟨h.takeThrough.1.symm.trans h'.takeThrough.1, h.takeThrough.2.symm.trans h'.takeThrough.2⟩

theorem readNumber_ok {delim : UInt8} {d : Bytes} {p q n : Nat} :
    ERd.readNumber delim d p = .ok (n, q) ↔ ∃ s, NumberText s n ∧ TokenAt delim d p (utf8 s) q := by
  obtain ⟨t, q', ht⟩ := exists_tokenAt delim d p
  have hr : ∀ s, utf8 s = t → ERd.readNumber delim d p = match parseUsize s with
      | some n => .ok (n, q')
      | none => .err (.format ("Cannot parse shape component '" ++ String.ofList s ++ "': " ++ ParseText.integer s)) := by
    intro s hs
    unfold ERd.readNumber
    rw [ERd.bind_apply, ht.read, show ERd.decodeToken false t = .ok s from decodeToken_eq_ok.mpr hs]
    show ERd.named _ _ d q' = _
    cases hp : parseUsize s <;> simp [ERd.named, Rd.lift, Res.ofOption, Res.map]
  constructor
  · intro h
    by_cases hs : ∃ s, utf8 s = t
    · obtain ⟨s, hs⟩ := hs
      rw [hr s hs] at h
      cases hp : parseUsize s with
      | none => rw [hp] at h; cases h
      | some m =>
        rw [hp] at h; cases h
        exact ⟨s, (c54_decimal s n).mp hp, hs ▸ ht⟩
    · have := ht.number_err.mpr (.inl ⟨fun s h => hs ⟨s, h⟩, rfl⟩)
      rw [this] at h; cases h
  · rintro ⟨s, h1, h2⟩
    obtain ⟨h3, rfl⟩ := ht.unique h2
    rw [hr s h3.symm, (c54_decimal s n).mpr h1]

theorem readShapeLine_err {d : Bytes} {p : Nat} {e : Error} :
    ERd.readShapeLine d p = .err e ↔ ShapeLineMessage d p e := by
  unfold ERd.readShapeLine ShapeLineMessage
  rw [ERd.bind_apply]
  refine (ERes.bind_eq_err (x := ERd.readNumber 32 d p)).trans ?_
  have hlater : ∀ n q, (ERd.readNumber 10 >>= fun m => (pure (n, m) : ERd (Nat × Nat))) d q = .err e ↔
      ∃ t' q', TokenAt 10 d q t' q' ∧ NumberMessage t' e := by
    intro n q
    rw [ERd.bind_apply]
    refine (ERes.bind_err_of (x := ERd.readNumber 10 d q) fun a h => by cases h).trans ?_
    constructor
    · intro h
      obtain ⟨t, q', ht⟩ := exists_tokenAt 10 d q
      exact ⟨t, q', ht, ht.number_err.mp h⟩
    · rintro ⟨t, q', ht, h⟩
      exact ht.number_err.mpr h
  constructor
  · rintro (h | ⟨⟨n, q⟩, h1, h2⟩)
    · obtain ⟨t, q', ht⟩ := exists_tokenAt 32 d p
      exact ⟨t, q', ht, .inl (ht.number_err.mp h)⟩
    · obtain ⟨s, hs, ht⟩ := readNumber_ok.mp h1
      exact ⟨_, q, ht, .inr ⟨⟨s, n, rfl, hs⟩, (hlater n q).mp h2⟩⟩
  · rintro ⟨t, q, ht, h | ⟨⟨s, n, rfl, hs⟩, h⟩⟩
    · exact .inl (ht.number_err.mpr h)
    · exact .inr ⟨(n, q), readNumber_ok.mpr ⟨s, hs, ht⟩, (hlater n q).mpr h⟩

theorem readShapeLine_ok {d : Bytes} {p q n k : Nat} :
    ERd.readShapeLine d p = .ok ((n, k), q) ↔ ShapeLine d p n k q := by
  unfold ERd.readShapeLine ShapeLine
  rw [ERd.bind_apply]
  refine (ERes.bind_eq_ok (x := ERd.readNumber 32 d p)).trans ?_
  constructor
  · rintro ⟨⟨n', p'⟩, h1, h2⟩
    rw [ERd.bind_apply] at h2
    obtain ⟨⟨k', q'⟩, h3, h4⟩ := (ERes.bind_eq_ok (x := ERd.readNumber 10 d p')).mp h2
    cases h4
    obtain ⟨s, h5, h6⟩ := readNumber_ok.mp h1
    obtain ⟨s', h7, h8⟩ := readNumber_ok.mp h3
    exact ⟨s, s', p', h5, h7, h6, h8⟩
  · rintro ⟨s, s', p', h1, h2, h3, h4⟩
    refine ⟨(n, p'), readNumber_ok.mpr ⟨s, h1, h3⟩, ?_⟩
    rw [ERd.bind_apply, readNumber_ok.mpr ⟨s', h2, h4⟩]
    rfl

/-- **C111**, text files with a first line: errors are about that line, or about the table behind it. The numbers of the first
line are limited by the memory (`C55`: otherwise there is a panic). -/
theorem c111_text_dims [Scalar F] [FloatText F] (lossy : Bool) (d : Bytes) (pos : Nat) :
    (ERd.readTextDims lossy d pos : ERes (Embeddings T SimpleVocab (NdArray F) F)).kinds =
      Embeddings.readTextDims lossy d pos ∧
    ∀ e, (ERd.readTextDims lossy d pos : ERes (Embeddings T SimpleVocab (NdArray F) F)) = .err e ↔
      ShapeLineMessage d pos e ∨ ∃ words dims q, ShapeLine d pos words dims q ∧ 24 * words ≤ isizeMax ∧
        4 * (words * dims) ≤ isizeMax ∧ TableMessage F lossy (some (words, dims)) (d.drop q) e := by
  constructor
  · refine ERes.kinds_bind ?_ fun _ => ERes.kinds_quiet (noErr_normalizeRead _)
    unfold ERd.readTextDimsRaw Embeddings.readTextDimsRaw ERd.readShapeLine
    rw [ERd.bind_apply]
    have := kindOf_number 32 d pos
    cases h1 : ERd.readNumber 32 d pos with
    | err x => rw [h1] at this; rw [← this]; rfl
    | panic => rw [h1] at this; rw [← this]; rfl
    | ok r =>
      obtain ⟨n, q⟩ := r
      rw [h1] at this; rw [← this]
      show (((ERd.readNumber 10 >>= fun m => (pure (n, m) : ERd (Nat × Nat))) d q) >>= _ : ERes _).kinds = _
      rw [ERd.bind_apply]
      have h2' := kindOf_number 10 d q
      cases h2 : ERd.readNumber 10 d q with
      | err x => rw [h2] at h2'; show _ = (FF.readNumber 10 d q >>= _); rw [← h2']; rfl
      | panic => rw [h2] at h2'; show _ = (FF.readNumber 10 d q >>= _); rw [← h2']; rfl
      | ok r =>
        rw [h2] at h2'
        show _ = (FF.readNumber 10 d q >>= _)
        rw [← h2']
        exact kinds_readEmbeds _ _ _ _
  · intro e
    refine (ERes.bind_err_of fun _ => ERes.quiet_ne_err (noErr_normalizeRead _) _).trans ?_
    unfold ERd.readTextDimsRaw
    rw [ERes.bind_eq_err, readShapeLine_err]
    refine or_congr Iff.rfl ?_
    have halloc : ∀ n k, (24 * n ≤ isizeMax ∧ 4 * (n * k) ≤ isizeMax → Embeddings.allocTable (some (n, k)) = .ok ()) ∧
        (¬ (24 * n ≤ isizeMax ∧ 4 * (n * k) ≤ isizeMax) → Embeddings.allocTable (some (n, k)) = .panic) := by
      intro n k
      unfold Embeddings.allocTable Res.assert
      constructor
      · rintro ⟨h1, h2⟩
        simp [h1, h2]
      · intro h
        by_cases h1 : 24 * n ≤ isizeMax
        · have h2 : ¬ 4 * (n * k) ≤ isizeMax := fun h2 => h ⟨h1, h2⟩
          simp [h1, h2]
        · simp [h1]
    constructor
    · rintro ⟨⟨⟨n, k⟩, q⟩, h1, h2⟩
      have h2 : (ERd.readEmbeds (some (n, k)) lossy d q : ERes (Embeddings T SimpleVocab (NdArray F) F)) = .err e := h2
      by_cases ha : 24 * n ≤ isizeMax ∧ 4 * (n * k) ≤ isizeMax
      · exact ⟨n, k, q, readShapeLine_ok.mp h1, ha.1, ha.2, (readEmbeds_err ((halloc n k).1 ha)).mp h2⟩
      · unfold ERd.readEmbeds at h2
        rw [(halloc n k).2 ha] at h2
        cases h2
    · rintro ⟨n, k, q, h1, h2, h3, h4⟩
      exact ⟨((n, k), q), readShapeLine_ok.mpr h1, (readEmbeds_err ((halloc n k).1 ⟨h2, h3⟩)).mpr h4⟩

/-! ## C111, word2vec -/

omit [ErrorText] [ParseText] in
theorem replicateM_err {α : Type} {m : ERd α} {n : Nat} {d : Bytes} {p : Nat} {e : Error} :
    ERd.replicateM n m d p = .err e ↔
      ∃ j, j < n ∧ ∃ as q, ERd.replicateM j m d p = .ok (as, q) ∧ m d q = .err e := by
  induction n generalizing p with
  | zero => exact ⟨fun h => (by cases h), fun ⟨j, h, _⟩ => absurd h (by omega)⟩
  | succ n ih =>
    have hs : ∀ k, ERd.replicateM (k + 1) m d p = (m d p).bind fun r =>
        (ERd.replicateM k m d r.2).bind fun rs => .ok (r.1 :: rs.1, rs.2) := by
      intro k
      show (m >>= _) d p = _
      rw [ERd.bind_apply]
      cases m d p with
      | err x => rfl
      | panic => rfl
      | ok r =>
        show (ERd.replicateM k m >>= fun as => (pure (r.1 :: as) : ERd (List α))) d r.2 =
          (ERd.replicateM k m d r.2).bind fun rs => .ok (r.1 :: rs.1, rs.2)
        rw [ERd.bind_apply]
        rfl
    rw [hs]
    refine (ERes.bind_eq_err (x := m d p)).trans ?_
    constructor
    · rintro (h | ⟨r, h1, h2⟩)
      · exact ⟨0, by omega, [], p, rfl, h⟩
      · rcases (ERes.bind_eq_err (x := ERd.replicateM n m d r.2)).mp h2 with h3 | ⟨_, _, h4⟩
        · obtain ⟨j, hj, as, q, h5, h6⟩ := ih.mp h3
          refine ⟨j + 1, by omega, r.1 :: as, q, ?_, h6⟩
          rw [hs, h1]
          show (ERd.replicateM j m d r.2).bind _ = _
          rw [h5]; rfl
        · cases h4
    · rintro ⟨j, hj, as, q, h1, h2⟩
      cases j with
      | zero => cases h1; exact .inl h2
      | succ j =>
        rw [hs] at h1
        obtain ⟨r, h3, h4⟩ := (ERes.bind_eq_ok (x := m d p)).mp h1
        obtain ⟨rs, h5, h6⟩ := (ERes.bind_eq_ok (x := ERd.replicateM j m d r.2)).mp h4
        cases h6
        exact .inr ⟨r, h3, (ERes.bind_eq_err (x := ERd.replicateM n m d r.2)).mpr
          (.inl (ih.mpr ⟨j, by omega, rs.1, rs.2, h5, h2⟩))⟩

/-- Specification: from `p` to `q` the data has `j` words that the reader can decode, each with a space and a vector of
`k` components. -/
inductive W2vEntries (lossy : Bool) (d : Bytes) (k : Nat) : Nat → Nat → Nat → Prop
  | none (p : Nat) : W2vEntries lossy d k 0 p p
  | more {j p p' q : Nat} {t : Bytes} {s : Str} : TokenAt 32 d p t p' → LineText lossy t s →
      (k = 0 ∨ p' + 4 * k ≤ d.length) → W2vEntries lossy d k j (p' + 4 * k) q → W2vEntries lossy d k (j + 1) p q

/-- Specification: what is said of the words and vectors: about the first word that is not UTF-8, or that the vectors end too
early. -/
def W2vMessage (lossy : Bool) (d : Bytes) (n k p : Nat) (e : Error) : Prop :=
  ∃ j q t q', j < n ∧ W2vEntries lossy d k j p q ∧ TokenAt 32 d q t q' ∧
    (lossy = false ∧ TokenMessage t e ∨
     (∃ s, LineText lossy t s) ∧ 0 < k ∧ d.length < q' + 4 * k ∧ e = .read "Cannot read word embedding")

omit [ErrorText] [ParseText] in
theorem readingF32s_eq (desc : String) (k : Nat) (d : Bytes) (p : Nat) :
    ERd.reading desc (Rd.readF32s k) d p = if k = 0 ∨ p + 4 * k ≤ d.length then
      .ok (Rd.decodeF32s k ((d.drop p).take (4 * k)), p + 4 * k) else .err (.read desc) := by
  unfold ERd.reading ERd.named Rd.readF32s
  rw [Rd.bind_apply]
  by_cases hk : k = 0
  · subst hk
    rw [if_pos (.inl rfl)]
    unfold Rd.readExact
    rw [if_pos (by rfl)]
    rfl
  · unfold Rd.readExact
    rw [if_neg (by omega)]
    by_cases h : p + 4 * k ≤ d.length
    · rw [if_pos h, if_pos (.inr h)]; rfl
    · rw [if_neg h, if_neg (by rintro (h' | h') <;> omega)]; rfl

omit [ParseText] in
theorem readEntry_eq [FloatBits F] {lossy : Bool} {d t : Bytes} {k p q : Nat} (h : TokenAt 32 d p t q) :
    (ERd.readWord2vecEntry k lossy d p : ERes ((Str × List F) × Nat)) = (ERd.decodeToken lossy t).bind fun s =>
      if k = 0 ∨ q + 4 * k ≤ d.length then
        .ok ((trimBy isWhitespace s, (Rd.decodeF32s k ((d.drop q).take (4 * k))).map FloatBits.ofBits), q + 4 * k)
      else .err (.read "Cannot read word embedding") := by
  unfold ERd.readWord2vecEntry
  rw [ERd.bind_apply, h.read]
  cases ERd.decodeToken lossy t with
  | err x => rfl
  | panic => rfl
  | ok s =>
    show (ERd.reading "Cannot read word embedding" (Rd.readF32s k) >>= fun xs =>
      (pure (trimBy isWhitespace s, xs.map FloatBits.ofBits) : ERd (Str × List F))) d q = _
    rw [ERd.bind_apply, readingF32s_eq]
    show _ = if k = 0 ∨ q + 4 * k ≤ d.length then _ else _
    split <;> rfl

omit [ParseText] in
theorem entries_iff [FloatBits F] {lossy : Bool} {d : Bytes} {k j p q : Nat} :
    (∃ es : List (Str × List F), ERd.replicateM j (ERd.readWord2vecEntry k lossy) d p = .ok (es, q)) ↔
      W2vEntries lossy d k j p q := by
  induction j generalizing p with
  | zero =>
    constructor
    · rintro ⟨_, h⟩; cases h; exact .none _
    · intro h; cases h; exact ⟨[], rfl⟩
  | succ j ih =>
    obtain ⟨t, p', ht⟩ := exists_tokenAt 32 d p
    constructor
    · rintro ⟨es, h⟩
      have h : (ERd.readWord2vecEntry (F := F) k lossy >>= _) d p = .ok (es, q) := h
      rw [ERd.bind_apply] at h
      obtain ⟨⟨a, p2⟩, h1, h2⟩ := (ERes.bind_eq_ok (x := ERd.readWord2vecEntry k lossy d p)).mp h
      have h2 : (ERd.replicateM j (ERd.readWord2vecEntry (F := F) k lossy) >>= _) d p2 = .ok (es, q) := h2
      rw [ERd.bind_apply] at h2
      obtain ⟨⟨as, q'⟩, h3, h4⟩ := (ERes.bind_eq_ok (x := ERd.replicateM j _ d p2)).mp h2
      cases h4
      rw [readEntry_eq ht] at h1
      obtain ⟨s, h5, h6⟩ := (ERes.bind_eq_ok (x := ERd.decodeToken lossy t)).mp h1
      split at h6
      · rename_i hc
        cases h6
        exact .more ht (decodeToken_eq_ok.mp h5) hc (ih.mp ⟨as, h3⟩)
      · cases h6
    · intro h
      cases h with
      | more h1 h2 h3 h4 =>
        obtain ⟨as, h5⟩ := ih.mpr h4
        have h6 := readEntry_eq (F := F) (lossy := lossy) (k := k) h1
        rw [decodeToken_eq_ok.mpr h2] at h6
        have h6 := h6.trans (if_pos h3)
        generalize (trimBy isWhitespace _, _) = a at h6
        refine ⟨a :: as, ?_⟩
        show (ERd.readWord2vecEntry (F := F) k lossy >>= _) d p = _
        rw [ERd.bind_apply, h6]
        show (ERd.replicateM j (ERd.readWord2vecEntry (F := F) k lossy) >>= fun as =>
          (pure (a :: as) : ERd (List (Str × List F)))) d _ = _
        rw [ERd.bind_apply, h5]
        rfl

/-- **C111**, word2vec files: errors are about the first line, about words that are not UTF-8, or the data ends too early. The
numbers of the first line are limited by the memory. -/
theorem c111_word2vec [Scalar F] [FloatBits F] (lossy : Bool) (d : Bytes) (pos : Nat) (e : Error) :
    (ERd.readWord2vec lossy d pos : ERes (Embeddings T SimpleVocab (NdArray F) F × Nat)) = .err e ↔
      ShapeLineMessage d pos e ∨ ∃ words dims q, ShapeLine d pos words dims q ∧ 24 * words ≤ isizeMax ∧
        ([words, dims].filter (· ≠ 0)).prod ≤ isizeMax ∧ 4 * (words * dims) ≤ isizeMax ∧
        W2vMessage lossy d words dims q e := by
  have hq : ∀ {α : Type} {r : Res α} (_ : Res.NoErr r) (d : Bytes) (p : Nat) (e : Error),
      ERd.quiet (Rd.lift r) d p ≠ .err e := by
    intro α r h d p e
    cases r with
    | ok a => simp [ERd.quiet, ERd.named, Rd.lift]
    | err x => exact absurd rfl (h x)
    | panic => simp [ERd.quiet, ERd.named, Rd.lift]
  unfold ERd.readWord2vec
  rw [ERd.bind_apply]
  refine (ERes.bind_err_of (x := ERd.readWord2vecRaw lossy d pos) fun _ => hq (noErr_normalizeRead _) _ _ _).trans ?_
  unfold ERd.readWord2vecRaw
  rw [ERd.bind_apply]
  refine (ERes.bind_eq_err (x := ERd.readShapeLine d pos)).trans ?_
  rw [readShapeLine_err]
  refine or_congr Iff.rfl ?_
  have hbody : ∀ n k q, (ERd.readWord2vecBody lossy n k d q : ERes (Embeddings T SimpleVocab (NdArray F) F × Nat)) = .err e ↔
      (24 * n ≤ isizeMax ∧ ([n, k].filter (· ≠ 0)).prod ≤ isizeMax ∧ 4 * (n * k) ≤ isizeMax) ∧
        W2vMessage lossy d n k q e := by
    intro n k q
    unfold ERd.readWord2vecBody
    by_cases h1 : ([n, k].filter (· ≠ 0)).prod ≤ isizeMax ∧ 4 * (n * k) ≤ isizeMax
    · have e1 : ERd.quiet (allocArray 4 [n, k]) d q = .ok ((), q) := by
        unfold allocArray ERd.quiet ERd.named
        rw [decide_eq_true (by simpa using h1)]; rfl
      rw [bind_of_ok e1]
      by_cases h2 : 24 * n ≤ isizeMax
      · have e2 : ERd.quiet (Rd.alloc 24 n) d q = .ok ((), q) := by
          unfold Rd.alloc ERd.quiet ERd.named
          rw [decide_eq_true h2]; rfl
        rw [bind_of_ok e2, ERd.bind_apply]
        refine (ERes.bind_err_of (x := ERd.replicateM n (ERd.readWord2vecEntry (F := F) k lossy) d q) fun a h => ?_).trans ?_
        · rw [ERd.bind_apply] at h
          rcases (ERes.bind_eq_err (x := ERd.quiet (Rd.lift (SimpleVocab.new _)) d a.2)).mp h with h | ⟨_, _, h⟩
          · exact hq (noErr_simple _) _ _ _ h
          · exact hq (noErr_newWithMaybeNorms (fun _ => Res.noErr_ok _) _ _ _ _) _ _ _ h
        · rw [replicateM_err]
          unfold W2vMessage
          constructor
          · rintro ⟨j, hj, as, p, h3, h4⟩
            obtain ⟨t, p', ht⟩ := exists_tokenAt 32 d p
            refine ⟨⟨h2, h1⟩, j, p, t, p', hj, entries_iff.mp ⟨as, h3⟩, ht, ?_⟩
            rw [readEntry_eq ht] at h4
            rcases (ERes.bind_eq_err (x := ERd.decodeToken lossy t)).mp h4 with h5 | ⟨s, h5, h6⟩
            · exact .inl (decodeToken_eq_err.mp h5)
            · split at h6
              · cases h6
              · rename_i hc
                cases h6
                exact .inr ⟨⟨s, decodeToken_eq_ok.mp h5⟩, by omega, by omega, rfl⟩
          · rintro ⟨_, j, p, t, p', hj, h3, ht, h4⟩
            obtain ⟨as, h5⟩ := (entries_iff (F := F)).mpr h3
            refine ⟨j, hj, as, p, h5, ?_⟩
            rw [readEntry_eq ht]
            refine (ERes.bind_eq_err (x := ERd.decodeToken lossy t)).mpr ?_
            rcases h4 with h4 | ⟨⟨s, hs⟩, h6, h7, rfl⟩
            · exact .inl (decodeToken_eq_err.mpr h4)
            · exact .inr ⟨s, decodeToken_eq_ok.mpr hs, if_neg (by omega)⟩
      · have e2 : ERd.quiet (Rd.alloc 24 n) d q = .panic := by
          unfold Rd.alloc ERd.quiet ERd.named
          rw [decide_eq_false h2]; rfl
        rw [ERd.bind_apply, e2]
        exact ⟨fun h => (by cases h), fun h => absurd h.1.1 h2⟩
    · have e1 : ERd.quiet (allocArray 4 [n, k]) d q = .panic := by
        unfold allocArray ERd.quiet ERd.named
        rw [decide_eq_false (by simpa using h1)]; rfl
      rw [ERd.bind_apply, e1]
      exact ⟨fun h => (by cases h), fun h => absurd h.1.2 h1⟩
  constructor
  · rintro ⟨⟨⟨n, k⟩, q⟩, h1, h2⟩
    obtain ⟨⟨h3, h4, h5⟩, h6⟩ := (hbody n k q).mp h2
    exact ⟨n, k, q, readShapeLine_ok.mp h1, h3, h4, h5, h6⟩
  · rintro ⟨n, k, q, h1, h2, h3, h4, h5⟩
    exact ⟨((n, k), q), readShapeLine_ok.mpr h1, (hbody n k q).mpr ⟨⟨h2, h3, h4⟩, h5⟩⟩

/-! ## C111, floret -/

/-- Specification: what is said of `k` numbers with a space behind each, about the first that is not a number. If all are
numbers, `rest` says what is said of the data behind them. -/
def NumbersMessage (d : Bytes) (e : Error) (rest : Nat → Prop) : Nat → Nat → Prop
  | 0, p => rest p
  | k + 1, p => (∃ t q, TokenAt 32 d p t q ∧ NumberMessage t e) ∨
      ∃ s n q, NumberText s n ∧ TokenAt 32 d p (utf8 s) q ∧ NumbersMessage d e rest k q

/-- Specification: what is said of the first line of a floret file: about its numbers, or about its two boundaries. -/
def FloretHeadMessage (d : Bytes) (p : Nat) (e : Error) : Prop :=
  NumbersMessage d e (fun p => ∃ t q, TokenAt 32 d p t q ∧ (TokenMessage t e ∨
    (∃ s, utf8 s = t) ∧ ∃ t' q', TokenAt 10 d q t' q' ∧ TokenMessage t' e)) 6 p

/-- Specification: numbers with a space behind each, from `p` to `q`. -/
inductive NumbersAt (d : Bytes) : List Nat → Nat → Nat → Prop
  | nil (p : Nat) : NumbersAt d [] p p
  | cons {s : Str} {n p p' q : Nat} {ns : List Nat} : NumberText s n → TokenAt 32 d p (utf8 s) p' → NumbersAt d ns p' q →
      NumbersAt d (n :: ns) p q

/-- Specification: a first line of a floret file, six numbers and two boundaries, `q` is behind it. -/
def FloretHeadAt (d : Bytes) (p : Nat) (numbers : List Nat) (bow eow : Str) (q : Nat) : Prop :=
  ∃ p' p'', NumbersAt d numbers p p' ∧ TokenAt 32 d p' (utf8 bow) p'' ∧ TokenAt 10 d p'' (utf8 eow) q

theorem numbers_step {β : Type} {f : Nat → ERd β} {d : Bytes} {p k : Nat} {e : Error} {rest : Nat → Prop}
    (h : ∀ n q, f n d q = .err e ↔ NumbersMessage d e rest k q) :
    (ERd.readNumber 32 >>= f) d p = .err e ↔ NumbersMessage d e rest (k + 1) p := by
  rw [ERd.bind_apply]
  refine (ERes.bind_eq_err (x := ERd.readNumber 32 d p)).trans ?_
  constructor
  · rintro (h1 | ⟨⟨n, q⟩, h1, h2⟩)
    · obtain ⟨t, q, ht⟩ := exists_tokenAt 32 d p
      exact .inl ⟨t, q, ht, ht.number_err.mp h1⟩
    · obtain ⟨s, hs, ht⟩ := readNumber_ok.mp h1
      exact .inr ⟨s, n, q, hs, ht, (h n q).mp h2⟩
  · rintro (⟨t, q, ht, h1⟩ | ⟨s, n, q, hs, ht, h1⟩)
    · exact .inl (ht.number_err.mpr h1)
    · exact .inr ⟨(n, q), readNumber_ok.mpr ⟨s, hs, ht⟩, (h n q).mpr h1⟩

omit [ParseText] in
theorem readToken_ok {delim : UInt8} {d : Bytes} {p q : Nat} {s : Str} :
    ERd.readToken delim false d p = .ok (s, q) ↔ TokenAt delim d p (utf8 s) q := by
  obtain ⟨t, q', ht⟩ := exists_tokenAt delim d p
  rw [ht.read]
  refine (ERes.bind_eq_ok (x := ERd.decodeToken false t)).trans ?_
  constructor
  · rintro ⟨s', h1, h2⟩
    cases h2
    have h1 : utf8 s = t := decodeToken_eq_ok.mp h1
    rw [h1]; exact ht
  · intro h
    obtain ⟨h1, rfl⟩ := ht.unique h
    exact ⟨s, decodeToken_eq_ok.mpr h1.symm, rfl⟩

theorem readFloretHead_err {d : Bytes} {p : Nat} {e : Error} :
    ERd.readFloretHead d p = .err e ↔ FloretHeadMessage d p e := by
  unfold ERd.readFloretHead FloretHeadMessage
  refine numbers_step fun _ _ => numbers_step fun _ _ => numbers_step fun _ _ => numbers_step fun _ _ =>
    numbers_step fun _ _ => numbers_step fun _ q => ?_
  rw [ERd.bind_apply]
  refine (ERes.bind_eq_err (x := ERd.readToken 32 false d q)).trans ?_
  obtain ⟨t, q', ht⟩ := exists_tokenAt 32 d q
  constructor
  · rintro (h | ⟨⟨s, q2⟩, h1, h2⟩)
    · exact ⟨t, q', ht, .inl (ht.strict_err.mp h)⟩
    · refine ⟨_, _, readToken_ok.mp h1, .inr ⟨⟨s, rfl⟩, ?_⟩⟩
      obtain ⟨t', q3, ht'⟩ := exists_tokenAt 10 d q2
      rw [ERd.bind_apply] at h2
      exact ⟨t', q3, ht', ht'.strict_err.mp ((ERes.bind_err_of (x := ERd.readToken 10 false d q2) fun a h => (by cases h)).mp h2)⟩
  · rintro ⟨t2, q2, h1, h | ⟨⟨s, rfl⟩, t', q3, h2, h3⟩⟩
    · exact .inl (h1.strict_err.mpr h)
    · refine .inr ⟨(s, q2), readToken_ok.mpr h1, ?_⟩
      rw [ERd.bind_apply]
      exact (ERes.bind_eq_err (x := ERd.readToken 10 false d q2)).mpr (.inl (h2.strict_err.mpr h3))

theorem readFloretHead_ok {d : Bytes} {p q : Nat} {h : FloretHead} : ERd.readFloretHead d p = .ok (h, q) ↔
    ∃ buckets dims a b c seed bow eow, FloretHeadAt d p [buckets, dims, a, b, c, seed] bow eow q ∧
      h = ⟨buckets, dims, a % 2 ^ 32, b % 2 ^ 32, c % 2 ^ 32, seed, bow, eow⟩ := by
  have hn : ∀ {β : Type} {f : Nat → ERd β} {p : Nat} {b : β}, (ERd.readNumber 32 >>= f) d p = .ok (b, q) ↔
      ∃ n s p', NumberText s n ∧ TokenAt 32 d p (utf8 s) p' ∧ f n d p' = .ok (b, q) := by
    intro β f p b
    rw [ERd.bind_apply]
    refine (ERes.bind_eq_ok (x := ERd.readNumber 32 d p)).trans ?_
    constructor
    · rintro ⟨⟨n, p'⟩, h1, h2⟩
      obtain ⟨s, hs, ht⟩ := readNumber_ok.mp h1
      exact ⟨n, s, p', hs, ht, h2⟩
    · rintro ⟨n, s, p', hs, ht, h2⟩
      exact ⟨(n, p'), readNumber_ok.mpr ⟨s, hs, ht⟩, h2⟩
  have ht : ∀ {β : Type} {f : Str → ERd β} {delim : UInt8} {p : Nat} {b : β},
      (ERd.readToken delim false >>= f) d p = .ok (b, q) ↔
      ∃ s p', TokenAt delim d p (utf8 s) p' ∧ f s d p' = .ok (b, q) := by
    intro β f delim p b
    rw [ERd.bind_apply]
    refine (ERes.bind_eq_ok (x := ERd.readToken delim false d p)).trans ?_
    constructor
    · rintro ⟨⟨s, p'⟩, h1, h2⟩
      exact ⟨s, p', readToken_ok.mp h1, h2⟩
    · rintro ⟨s, p', ht, h2⟩
      exact ⟨(s, p'), readToken_ok.mpr ht, h2⟩
  unfold ERd.readFloretHead
  simp only [hn, ht]
  constructor
  · rintro ⟨n1, s1, p1, h1, t1, n2, s2, p2, h2, t2, n3, s3, p3, h3, t3, n4, s4, p4, h4, t4, n5, s5, p5, h5, t5,
      n6, s6, p6, h6, t6, bow, p7, t7, eow, p8, t8, h⟩
    cases h
    exact ⟨n1, n2, n3, n4, n5, n6, bow, eow, ⟨p6, p7, .cons h1 t1 (.cons h2 t2 (.cons h3 t3 (.cons h4 t4 (.cons h5 t5
      (.cons h6 t6 (.nil _)))))), t7, t8⟩, rfl⟩
  · rintro ⟨n1, n2, n3, n4, n5, n6, bow, eow, ⟨p6, p7, h1, t7, t8⟩, rfl⟩
    cases h1 with | cons h1 t1 h =>
    cases h with | cons h2 t2 h =>
    cases h with | cons h3 t3 h =>
    cases h with | cons h4 t4 h =>
    cases h with | cons h5 t5 h =>
    cases h with | cons h6 t6 h =>
    cases h
    exact ⟨_, _, _, h1, t1, _, _, _, h2, t2, _, _, _, h3, t3, _, _, _, h4, t4, _, _, _, h5, t5, _, _, _, h6, t6,
      _, _, t7, _, _, t8, rfl⟩

/-- Specification: what is said of the parameters in the first line. -/
def FloretParamMessage (buckets dims minN maxN hashes : Nat) (e : Error) : Prop :=
  buckets = 0 ∧ e = .format "Expected at least 1 bucket" ∨
  0 < buckets ∧ dims = 0 ∧ e = .format "Embeddings should have at least 1 dimension" ∨
  0 < buckets ∧ 0 < dims ∧ maxN < minN ∧ e = .format ("The minimum n-gram length (" ++ number minN ++
    ") must not be larger than the maximum length (" ++ number maxN ++ ")") ∨
  0 < buckets ∧ 0 < dims ∧ minN ≤ maxN ∧ (hashes = 0 ∨ 4 < hashes) ∧
    e = .format ("The number of hashes should be between 1 and 4 (inclusive), was: " ++ number hashes)

/-- Specification: the parameters of a table that can be read. -/
def FloretParams (buckets dims minN maxN hashes : Nat) : Prop :=
  0 < buckets ∧ 0 < dims ∧ minN ≤ maxN ∧ 0 < hashes ∧ hashes ≤ 4

omit [ErrorText] [ParseText] in
theorem checkFloretHead_err {h : FloretHead} {e : Error} :
    ERd.checkFloretHead h = .err e ↔ FloretParamMessage h.nBuckets h.embedLen h.minN h.maxN h.nHashes e := by
  unfold ERd.checkFloretHead FloretParamMessage
  by_cases h1 : h.nBuckets = 0
  · simp [h1, eq_comm]
  rw [if_neg h1]
  by_cases h2 : h.embedLen = 0
  · simp [h1, h2, eq_comm]; omega
  rw [if_neg h2]
  by_cases h3 : h.minN > h.maxN
  · rw [if_pos h3]
    have : ¬ h.minN ≤ h.maxN := by omega
    have h1' : 0 < h.nBuckets := by omega
    have h2' : 0 < h.embedLen := by omega
    simp [h1, h2, h1', h2', h3, this, eq_comm]
  rw [if_neg h3]
  have h1' : 0 < h.nBuckets := by omega
  have h2' : 0 < h.embedLen := by omega
  have h3' : h.minN ≤ h.maxN := by omega
  by_cases h4 : 1 ≤ h.nHashes ∧ h.nHashes ≤ 4
  · rw [if_neg (by simpa using h4)]
    constructor
    · intro h; cases h
    · rintro (h | h | h | h)
      · exact absurd h.1 h1
      · exact absurd h.2.1 h2
      · exact absurd h.2.2.1 (by omega)
      · exact absurd h.2.2.2.1 (by omega)
  · rw [if_pos h4]
    constructor
    · intro h; cases h
      exact .inr (.inr (.inr ⟨h1', h2', h3', by omega, rfl⟩))
    · rintro (h | h | h | h)
      · exact absurd h.1 h1
      · exact absurd h.2.1 h2
      · exact absurd h.2.2.1 (by omega)
      · rw [h.2.2.2.2]

omit [ErrorText] [ParseText] in
theorem checkFloretHead_ok {h : FloretHead} :
    ERd.checkFloretHead h = .ok () ↔ FloretParams h.nBuckets h.embedLen h.minN h.maxN h.nHashes := by
  unfold ERd.checkFloretHead FloretParams
  split
  · simp; omega
  split
  · simp; omega
  split
  · simp; omega
  split
  · simp; omega
  · simp; omega

/-- Specification: a line with a bucket and `k` numbers. -/
def GoodFloretLine (F : Type) [FloatText F] (k : Nat) (line : Bytes) : Prop :=
  ∃ s tokens, utf8 s = line ∧ TokensOf s tokens ∧ (∀ n ∈ tokens.drop 1, (FloatText.parse n : Option F) ≠ none) ∧
    (tokens.drop 1).length = k

/-- Specification: what is said of other lines. -/
def FloretLineMessage (F : Type) [FloatText F] (k : Nat) (line : Bytes) (e : Error) : Prop :=
  (∀ s, utf8 s ≠ line) ∧ e = .read "Cannot read line" ∨
  ∃ s tokens, utf8 s = line ∧ TokensOf s tokens ∧
    ((∃ numbers p rest, tokens.drop 1 = numbers ++ p :: rest ∧
       (∀ n ∈ numbers, (FloatText.parse n : Option F) ≠ none) ∧ (FloatText.parse p : Option F) = none ∧
       e = .format ("Cannot parse vector component '" ++ String.ofList p ++ "': " ++ ParseText.float p)) ∨
     (∀ n ∈ tokens.drop 1, (FloatText.parse n : Option F) ≠ none) ∧ (tokens.drop 1).length ≠ k ∧
       e = .format ("Incorrect number of embedding components, expected: " ++ number k ++ ", got: " ++
         number (tokens.drop 1).length))

omit [ErrorText] in
theorem ereadFloretLine_err [FloatText F] {k : Nat} {line : Bytes} {e : Error} :
    (ERd.readFloretLine k line : ERes (List F)) = .err e ↔ FloretLineMessage F k line e := by
  unfold ERd.readFloretLine FloretLineMessage
  cases hd : utf8Decode line with
  | none =>
    have := utf8Decode_none.mp hd
    simp [this, eq_comm]
  | some s =>
    have hs := utf8Decode_some.mp hd
    dsimp only
    refine (ERes.bind_eq_err (x := ERes.each ERd.parseComponent _)).trans ?_
    rw [ERes.each_err]
    constructor
    · rintro (⟨before, x, after, h1, h2, h3⟩ | ⟨xs, h1, h2⟩)
      · exact .inr ⟨s, _, hs, (parts_spec _ _).mp rfl, .inl ⟨before, x, after, h1,
          fun n hn => parseComponent_ok.mp (h2 n hn), parseComponent_err.mp h3⟩⟩
      · have hl : ((parts s).drop 1).length = xs.length := by simpa using congrArg List.length (ERes.each_ok.mp h1)
        split at h2
        · rename_i hk
          cases h2
          exact .inr ⟨s, _, hs, (parts_spec _ _).mp rfl, .inr ⟨eachComponent_ok.mp ⟨xs, h1⟩, by rw [hl]; exact hk, by rw [hl]⟩⟩
        · cases h2
    · rintro (⟨h, _⟩ | ⟨s', ts, h1, h2, h⟩)
      · exact absurd hs (h s)
      · have : s' = s := by
          have := utf8Decode_utf8 s'
          rw [h1, hd] at this; cases this; rfl
        subst this
        rw [← parts_spec] at h2
        subst h2
        rcases h with ⟨numbers, p, rest, h3, h4, h5⟩ | ⟨h3, h4, rfl⟩
        · exact .inl ⟨numbers, p, rest, h3, fun n hn => parseComponent_ok.mpr (h4 n hn), parseComponent_err.mpr h5⟩
        · obtain ⟨xs, hx⟩ := eachComponent_ok.mpr h3
          have hl : ((parts s').drop 1).length = xs.length := by simpa using congrArg List.length (ERes.each_ok.mp hx)
          refine .inr ⟨xs, hx, ?_⟩
          rw [if_pos (by rw [← hl]; exact h4), hl]

omit [ErrorText] in
theorem ereadFloretLine_ok [FloatText F] {k : Nat} {line : Bytes} :
    (∃ row : List F, ERd.readFloretLine k line = .ok row) ↔ GoodFloretLine F k line := by
  unfold ERd.readFloretLine GoodFloretLine
  constructor
  · rintro ⟨row, h⟩
    cases hd : utf8Decode line with
    | none => rw [hd] at h; cases h
    | some s =>
      rw [hd] at h
      obtain ⟨xs, h1, h2⟩ := (ERes.bind_eq_ok (x := ERes.each ERd.parseComponent _)).mp h
      split at h2
      · cases h2
      · rename_i hk
        refine ⟨s, _, utf8Decode_some.mp hd, (parts_spec _ _).mp rfl, eachComponent_ok.mp ⟨xs, h1⟩, ?_⟩
        have hl : ((parts s).drop 1).length = xs.length := by simpa using congrArg List.length (ERes.each_ok.mp h1)
        rw [hl]; exact Decidable.not_not.mp hk
  · rintro ⟨s, ts, h1, h2, h3, h4⟩
    rw [← parts_spec] at h2
    subst h2
    obtain ⟨xs, hx⟩ := eachComponent_ok.mpr h3
    refine ⟨xs, ?_⟩
    rw [utf8Decode_some.mpr h1]
    refine (ERes.bind_eq_ok (x := ERes.each ERd.parseComponent _)).mpr ⟨xs, hx, ?_⟩
    have hl : ((parts s).drop 1).length = xs.length := by simpa using congrArg List.length (ERes.each_ok.mp hx)
    rw [if_neg (by rw [← hl]; simpa using h4)]

omit [ErrorText] in
theorem ereadFloretLine_len [FloatText F] {k : Nat} {line : Bytes} {row : List F}
    (h : ERd.readFloretLine k line = .ok row) : row.length = k := by
  unfold ERd.readFloretLine at h
  cases hd : utf8Decode line with
  | none => rw [hd] at h; cases h
  | some s =>
    rw [hd] at h
    obtain ⟨xs, h1, h2⟩ := (ERes.bind_eq_ok (x := ERes.each ERd.parseComponent _)).mp h
    split at h2
    · cases h2
    · rename_i hk; cases h2; exact Decidable.not_not.mp hk

omit [ErrorText] in
theorem ereadFloretLine_cr [FloatText F] (k : Nat) (l : Bytes) :
    (ERd.readFloretLine k (stripLast 13 l) : ERes (List F)) = ERd.readFloretLine k l := by
  unfold stripLast
  split
  · rename_i h
    obtain ⟨l', rfl⟩ : ∃ l', l = l' ++ [13] := by
      rcases List.eq_nil_or_concat l with rfl | ⟨l', b, rfl⟩
      · simp at h
      · simp only [List.concat_eq_append, List.getLast?_append, List.getLast?_singleton, Option.some_or,
          Option.some.injEq] at h
        exact ⟨l', by rw [h, List.concat_eq_append]⟩
    rw [List.dropLast_concat]
    unfold ERd.readFloretLine
    rw [utf8Decode_cr]
    cases utf8Decode l' with
    | none => rfl
    | some s => simp only [Option.map_some, parts_cr]
  · rfl

omit [ErrorText] in
theorem eachFloretLine [FloatText F] (k : Nat) (bs : Bytes) :
    ERes.each (ERd.readFloretLine (F := F) k) (bufLines bs) = ERes.each (ERd.readFloretLine k) (textLines bs) := by
  have hmap : ∀ {α : Type} (g g' : α → Bytes) (ls : List α), (∀ l, ERd.readFloretLine (F := F) k (g l) = ERd.readFloretLine k (g' l)) →
      ERes.each (ERd.readFloretLine (F := F) k) (ls.map g) = ERes.each (ERd.readFloretLine k) (ls.map g') := by
    intro α g g' ls h
    induction ls with
    | nil => rfl
    | cons l ls ih => simp only [List.map_cons, ERes.each, h l, ih]
  unfold bufLines textLines
  refine hmap _ _ _ fun l => ?_
  split
  · rename_i h
    rw [ereadFloretLine_cr]
    unfold stripLast
    rw [if_pos h]
  · rename_i h
    unfold stripLast
    rw [if_neg h]

/-- Specification: what is said of the lines behind the first line: about the first that is not good, otherwise that there are
too few or too many. -/
def FloretTableMessage (F : Type) [FloatText F] (buckets dims : Nat) (bs : Bytes) (e : Error) : Prop :=
  ∃ ls, IsLines bs ls ∧
    ((∃ before l after, ls = before ++ l :: after ∧ (∀ b ∈ before, GoodFloretLine F dims b) ∧ FloretLineMessage F dims l e) ∨
     (∀ l ∈ ls, GoodFloretLine F dims l) ∧ ls.length ≠ buckets ∧ e = .matrixShape)

/-- **C111**, floret files: errors are about the first line, then about its parameters, then about the lines behind it. -/
theorem c111_floret [FloatText F] (d : Bytes) (pos : Nat) :
    (ERd.readFloretText d pos : ERes (Embeddings T FloretSubwordVocab (NdArray F) F)).kinds =
      Embeddings.readFloret d pos ∧
    ∀ e, (ERd.readFloretText d pos : ERes (Embeddings T FloretSubwordVocab (NdArray F) F)) = .err e ↔
      FloretHeadMessage d pos e ∨
      ∃ buckets dims a b c seed bow eow q, FloretHeadAt d pos [buckets, dims, a, b, c, seed] bow eow q ∧
        (FloretParamMessage buckets dims (a % 2 ^ 32) (b % 2 ^ 32) (c % 2 ^ 32) e ∨
         FloretParams buckets dims (a % 2 ^ 32) (b % 2 ^ 32) (c % 2 ^ 32) ∧ 4 * (buckets * dims) ≤ isizeMax ∧
           FloretTableMessage F buckets dims (d.drop q) e) := by
  have hp : ∀ p : Str, (ERd.parseComponent p : ERes F).kinds = Res.ofOption .format (FloatText.parse p) := by
    intro p; unfold ERd.parseComponent
    cases (FloatText.parse p : Option F) <;> rfl
  have hvocab : ∀ (h : FloretHead) (ix : FloretIndexer),
      Res.NoErr (SubwordVocab.newWithBoundaries [] h.minN h.maxN ix h.bow h.eow) :=
    fun h ix => noErr_newWithBoundaries (fun _ => Res.noErr_ok _) _ _ _ _ _ _
  constructor
  · have hhead : KindOf ERd.readFloretHead FF.readFloretHead := by
      unfold ERd.readFloretHead FF.readFloretHead
      exact .bind (kindOf_number _) fun _ => .bind (kindOf_number _) fun _ => .bind (kindOf_number _) fun _ =>
        .bind (kindOf_number _) fun _ => .bind (kindOf_number _) fun _ => .bind (kindOf_number _) fun _ =>
        .bind (kindOf_token _ _) fun _ => .bind (kindOf_token _ _) fun _ => .pure _
    refine ERes.kinds_bind (hhead d pos) fun r => ERes.kinds_bind ?_ fun _ =>
      ERes.kinds_bind (ERes.kinds_quiet (Res.noErr_assert _)) fun _ =>
      ERes.kinds_bind (ERes.kinds_each (fun l => ?_) _) fun rows => ERes.kinds_bind ?_ fun m =>
      ERes.kinds_bind (ERes.kinds_quiet (noErr_floretNew _ _ _)) fun ix =>
      ERes.kinds_bind (ERes.kinds_quiet (hvocab r.1 ix)) fun _ =>
      ERes.kinds_quiet (noErr_newWithMaybeNorms (fun _ => Res.noErr_ok _) _ _ _ _)
    · unfold ERd.checkFloretHead FF.checkFloretHead
      split
      · rfl
      split
      · rfl
      split
      · rfl
      split <;> rfl
    · unfold ERd.readFloretLine Embeddings.readFloretLine
      cases utf8Decode l with
      | none => rfl
      | some s =>
        refine ERes.kinds_bind (ERes.kinds_each hp _) fun xs => ?_
        split <;> rfl
    · unfold ERd.fromShapeVec Embeddings.fromShapeVec
      split <;> rfl
  · intro e
    unfold ERd.readFloretText
    rw [ERes.bind_eq_err, readFloretHead_err]
    refine or_congr Iff.rfl ?_
    have hlater : ∀ h : FloretHead, ∀ rows : List (List F), 
        ((do
          let m ← ERd.fromShapeVec (h.nBuckets, h.embedLen) rows.flatten
          let indexer ← ERes.quiet (FloretIndexer.new h.nBuckets h.nHashes (UInt32.ofNat h.seed))
          let vocab ← ERes.quiet (SubwordVocab.newWithBoundaries [] h.minN h.maxN indexer h.bow h.eow)
          ERes.quiet (Embeddings.newWithMaybeNorms none vocab (NdArray.mk m) none) :
            ERes (Embeddings T FloretSubwordVocab (NdArray F) F)) = .err e) ↔
        rows.flatten.length ≠ h.nBuckets * h.embedLen ∧ e = .matrixShape := by
      intro h rows
      refine (ERes.bind_err_of fun m hm => ?_).trans ?_
      · rcases ERes.bind_eq_err.mp hm with h1 | ⟨ix, _, h1⟩
        · exact ERes.quiet_ne_err (noErr_floretNew _ _ _) _ h1
        · rcases ERes.bind_eq_err.mp h1 with h1 | ⟨v, _, h1⟩
          · exact ERes.quiet_ne_err (hvocab h ix) _ h1
          · exact ERes.quiet_ne_err (noErr_newWithMaybeNorms (fun _ => Res.noErr_ok _) _ _ _ _) _ h1
      · unfold ERd.fromShapeVec
        split
        · rename_i hl
          exact ⟨fun h => (by cases h), fun h => absurd hl h.1⟩
        · rename_i hl
          exact ⟨fun h => (by cases h; exact ⟨hl, rfl⟩), fun h => by rw [h.2]⟩
    have hbody : ∀ h : FloretHead, ∀ q,
        ((do
          ERd.checkFloretHead h
          ERes.quiet (Res.assert (decide (4 * (h.nBuckets * h.embedLen) ≤ isizeMax)))
          let rows ← ERes.each (ERd.readFloretLine (F := F) h.embedLen) (bufLines (d.drop q))
          let m ← ERd.fromShapeVec (h.nBuckets, h.embedLen) rows.flatten
          let indexer ← ERes.quiet (FloretIndexer.new h.nBuckets h.nHashes (UInt32.ofNat h.seed))
          let vocab ← ERes.quiet (SubwordVocab.newWithBoundaries [] h.minN h.maxN indexer h.bow h.eow)
          ERes.quiet (Embeddings.newWithMaybeNorms none vocab (NdArray.mk m) none) :
            ERes (Embeddings T FloretSubwordVocab (NdArray F) F)) = .err e) ↔
        (FloretParamMessage h.nBuckets h.embedLen h.minN h.maxN h.nHashes e ∨
         FloretParams h.nBuckets h.embedLen h.minN h.maxN h.nHashes ∧ 4 * (h.nBuckets * h.embedLen) ≤ isizeMax ∧
           FloretTableMessage F h.nBuckets h.embedLen (d.drop q) e) := by
      intro h q
      rw [ERes.bind_eq_err, checkFloretHead_err]
      refine or_congr Iff.rfl ?_
      have hone : ∀ (P : Unit → Prop), (∃ a, ERd.checkFloretHead h = .ok a ∧ P a) ↔
          FloretParams h.nBuckets h.embedLen h.minN h.maxN h.nHashes ∧ P () :=
        fun P => ⟨fun ⟨_, h1, h2⟩ => ⟨checkFloretHead_ok.mp h1, h2⟩, fun ⟨h1, h2⟩ => ⟨(), checkFloretHead_ok.mpr h1, h2⟩⟩
      rw [hone]
      refine and_congr_right fun hpar => ?_
      by_cases ha : 4 * (h.nBuckets * h.embedLen) ≤ isizeMax
      · rw [decide_eq_true ha]
        show ((ERes.each (ERd.readFloretLine (F := F) h.embedLen) (bufLines (d.drop q)) >>= _) = ERes.err e) ↔ _
        rw [eachFloretLine, ERes.bind_eq_err, ERes.each_err]
        unfold FloretTableMessage
        have hcount : ∀ {rows : List (List F)},
            ERes.each (ERd.readFloretLine h.embedLen) (textLines (d.drop q)) = .ok rows →
            (rows.flatten.length ≠ h.nBuckets * h.embedLen ↔ (textLines (d.drop q)).length ≠ h.nBuckets) ∧
              ∀ l ∈ textLines (d.drop q), GoodFloretLine F h.embedLen l := by
          intro rows hr
          have hm := ERes.each_ok.mp hr
          have hlen : (textLines (d.drop q)).length = rows.length := by simpa using congrArg List.length hm
          have hrow : ∀ r ∈ rows, r.length = h.embedLen := by
            intro r hr'
            have : ERes.ok r ∈ rows.map ERes.ok := List.mem_map_of_mem hr'
            rw [← hm] at this
            obtain ⟨l, _, hl⟩ := List.mem_map.mp this
            exact ereadFloretLine_len hl
          have hflat : rows.flatten.length = rows.length * h.embedLen := by
            clear hm hlen hr
            induction rows with
            | nil => simp
            | cons r rows ih =>
              rw [List.flatten_cons, List.length_append, ih fun r hr => hrow r (by simp [hr]), hrow r (by simp),
                List.length_cons, Nat.add_mul]
              omega
          refine ⟨?_, fun l hl => ?_⟩
          · rw [hflat, hlen]
            exact not_congr ⟨fun h' => Nat.eq_of_mul_eq_mul_right hpar.2.1 h', fun h' => by rw [h']⟩
          · have : ERd.readFloretLine (F := F) h.embedLen l ∈ (textLines (d.drop q)).map (ERd.readFloretLine h.embedLen) :=
              List.mem_map_of_mem hl
            rw [hm] at this
            obtain ⟨r, _, hr⟩ := List.mem_map.mp this
            exact ereadFloretLine_ok.mp ⟨r, hr.symm⟩
        constructor
        · rintro (⟨before, x, after, h1, h2, h3⟩ | ⟨rows, h1, h2⟩)
          · exact ⟨ha, _, textLines_spec _, .inl ⟨before, x, after, h1, fun b hb => ereadFloretLine_ok.mp (h2 b hb),
              ereadFloretLine_err.mp h3⟩⟩
          · obtain ⟨h3, rfl⟩ := (hlater h rows).mp h2
            exact ⟨ha, _, textLines_spec _, .inr ⟨(hcount h1).2, (hcount h1).1.mp h3, rfl⟩⟩
        · rintro ⟨_, ls, hls, ⟨before, x, after, h1, h2, h3⟩ | ⟨h1, h2, rfl⟩⟩
          · cases hls.eq
            exact .inl ⟨before, x, after, h1, fun b hb => ereadFloretLine_ok.mpr (h2 b hb), ereadFloretLine_err.mpr h3⟩
          · cases hls.eq
            have : ∃ rows : List (List F), ERes.each (ERd.readFloretLine h.embedLen) (textLines (d.drop q)) = .ok rows := by
              clear hcount h2 hls
              generalize textLines (d.drop q) = ls at h1 ⊢
              induction ls with
              | nil => exact ⟨[], rfl⟩
              | cons l ls ih =>
                obtain ⟨r, hr⟩ := ereadFloretLine_ok.mpr (h1 l (by simp))
                obtain ⟨rs, hrs⟩ := ih fun l hl => h1 l (by simp [hl])
                refine ⟨r :: rs, ERes.each_ok.mpr ?_⟩
                rw [ERes.each_ok] at hrs
                simp [hr, hrs]
            obtain ⟨rows, hr⟩ := this
            exact .inr ⟨rows, hr, (hlater h rows).mpr ⟨(hcount hr).1.mpr h2, rfl⟩⟩
      · rw [decide_eq_false ha]
        exact ⟨fun h => (by cases h), fun h => absurd h.1 ha⟩
    constructor
    · rintro ⟨⟨h, q⟩, h1, h2⟩
      obtain ⟨buckets, dims, a, b, c, seed, bow, eow, h3, rfl⟩ := readFloretHead_ok.mp h1
      exact ⟨buckets, dims, a, b, c, seed, bow, eow, q, h3, (hbody _ q).mp h2⟩
    · rintro ⟨buckets, dims, a, b, c, seed, bow, eow, q, h1, h2⟩
      exact ⟨(_, q), readFloretHead_ok.mpr ⟨buckets, dims, a, b, c, seed, bow, eow, h1, rfl⟩, (hbody _ q).mpr h2⟩

/-! ## C111, fastText -/

open Rd (ReadsAt)

/-- The reader fails with `e` at `off` whatever is behind the bytes `bs`, compare `FailsAt`. -/
def SaysAt {α : Type} (m : ERd α) (off : Nat) (bs : Bytes) (e : Error) : Prop :=
  ∀ pre post : Bytes, pre.length = off → m (pre ++ (bs ++ post)) off = .err e

omit [ErrorText] [ParseText] in
theorem ERd.KindOf.ok {α : Type} {m : ERd α} {r : Rd α} (h : KindOf m r) {d : Bytes} {p : Nat} {a : α × Nat}
    (hr : r d p = .ok a) : m d p = .ok a := by
  have := h d p
  rw [hr] at this
  cases hm : m d p with
  | ok b => rw [hm] at this; cases this; rfl
  | err x => rw [hm] at this; cases this
  | panic => rw [hm] at this; cases this

namespace SaysAt
omit [ErrorText] [ParseText]

theorem fail {α : Type} (off : Nat) (bs : Bytes) (e : Error) : SaysAt (ERd.fail e : ERd α) off bs e :=
  fun _ _ _ => rfl

theorem left {α β : Type} {m : ERd α} {f : α → ERd β} {off : Nat} {bs : Bytes} {e : Error}
    (h : SaysAt m off bs e) : SaysAt (m >>= f) off bs e := by
  intro pre post hp
  rw [ERd.bind_apply, h pre post hp]; rfl

theorem right {α β : Type} {m : ERd α} {r : Rd α} {f : α → ERd β} {off : Nat} {b₁ b₂ : Bytes} {a : α} {e : Error}
    (hk : KindOf m r) (h₁ : ReadsAt r off b₁ a) (h₂ : SaysAt (f a) (off + b₁.length) b₂ e) :
    SaysAt (m >>= f) off (b₁ ++ b₂) e := by
  intro pre post h
  have e₁ := hk.ok (h₁ pre (b₂ ++ post) h)
  have e₂ := h₂ (pre ++ b₁) post (by simp [h])
  simp only [ERd.bind_apply, List.append_assoc] at *
  rw [e₁]
  exact e₂

/-- A step that consumes nothing. -/
theorem right0 {α β : Type} {m : ERd α} {r : Rd α} {f : α → ERd β} {off : Nat} {bs : Bytes} {a : α} {e : Error}
    (hk : KindOf m r) (h₁ : ReadsAt r off [] a) (h₂ : SaysAt (f a) off bs e) : SaysAt (m >>= f) off bs e := by
  have := SaysAt.right (b₂ := bs) hk h₁ (by simpa using h₂)
  simpa using this

theorem append {α : Type} {m : ERd α} {off : Nat} {bs : Bytes} {e : Error} (h : SaysAt m off bs e)
    (more : Bytes) : SaysAt m off (bs ++ more) e := by
  intro pre post hp
  have := h pre (more ++ post) hp
  rwa [← List.append_assoc bs] at this

theorem at' {α : Type} {m : ERd α} {d bs : Bytes} {pos q : Nat} {e : Error} (h : SaysAt m pos bs e) (ht : Took d pos q bs)
    (hp : pos ≤ d.length) : m d pos = .err e := by
  have := h (d.take pos) (d.drop q) (by simp [hp])
  rw [← ht.1] at this
  rwa [List.take_append_drop] at this

end SaysAt

/-- Specification: what is said of the numbers at the start of a fastText model that is not supported. -/
def FtHead.complaint (h : FtHead) : Option String :=
  if h.magic ≠ 793712314 then some ("Expected 793712314 as magic, got: " ++ number h.magic)
  else if 12 < h.version then some ("Expected 12 as version, got: " ++ number h.version)
  else if ¬ (1 ≤ h.loss ∧ h.loss ≤ 3) then some ("Unknown loss: " ++ number h.loss)
  else if ¬ (1 ≤ h.model ∧ h.model ≤ 3) then some ("Unknown model: " ++ number h.model)
  else if h.nLabels ≠ 0 then some "fastText prediction models are not supported"
  else if h.prune < 2 ^ 63 then some "Pruned vocabularies are not supported"
  else none

omit [ErrorText] [ParseText] in
theorem FtHead.complaint_none (h : FtHead) : h.complaint = none ↔ h.Supported := by
  unfold FtHead.complaint
  constructor
  · intro hn
    split at hn; · cases hn
    split at hn; · cases hn
    split at hn; · cases hn
    split at hn; · cases hn
    split at hn; · cases hn
    split at hn; · cases hn
    rename_i h1 h2 h3 h4 h5 h6
    exact ⟨Decidable.not_not.mp h1, by omega, Decidable.not_not.mp h3, Decidable.not_not.mp h4, Decidable.not_not.mp h5, by omega⟩
  · intro hs
    rw [if_neg (by simpa using hs.magic), if_neg (by have := hs.version; omega), if_neg (by simpa using hs.loss),
      if_neg (by simpa using hs.model), if_neg (by simpa using hs.nLabels), if_neg (by have := hs.prune; omega)]

omit [ErrorText] [ParseText] in
theorem readFtLoss_says {n : Nat} (hn : n < 2 ^ 32) (h : ¬ (1 ≤ n ∧ n ≤ 3)) (off : Nat) :
    SaysAt ERd.readLoss off (leBytes 4 n) (.format ("Unknown loss: " ++ number n)) := by
  unfold ERd.readLoss
  rw [← List.append_nil (leBytes 4 n)]
  refine .right (KindOf.u32 _) (.readU32 hn) ?_
  rw [if_neg (by omega), if_neg (by omega), if_neg (by omega)]
  exact .fail _ _ _

omit [ErrorText] [ParseText] in
theorem readFtModel_says {n : Nat} (hn : n < 2 ^ 32) (h : ¬ (1 ≤ n ∧ n ≤ 3)) (off : Nat) :
    SaysAt ERd.readModel off (leBytes 4 n) (.format ("Unknown model: " ++ number n)) := by
  unfold ERd.readModel
  rw [← List.append_nil (leBytes 4 n)]
  refine .right (KindOf.u32 _) (.readU32 hn) ?_
  rw [if_neg (by omega), if_neg (by omega), if_neg (by omega)]
  exact .fail _ _ _

omit [ErrorText] [ParseText] in
theorem kindOf_loss : KindOf ERd.readLoss FF.readLoss :=
  (KindOf.u32 _).bind fun _ => .ite (.pure _) (.ite (.pure _) (.ite (.pure _) (.fail rfl)))

omit [ErrorText] [ParseText] in
theorem kindOf_ftVocabHead : KindOf ERd.readFtVocabHead FF.readFtVocabHead :=
  (KindOf.u32 _).bind fun _ => (KindOf.u32 _).bind fun _ => (KindOf.u32 _).bind fun _ => .ite (.fail rfl) <|
    (KindOf.u64 _).bind fun _ => (KindOf.u64 _).bind fun _ => .ite (.fail rfl) (.pure _)

omit [ErrorText] [ParseText] in
theorem kindOf_ftQuantized : KindOf ERd.readFtQuantized Embeddings.readFtQuantized :=
  (KindOf.exact _ _).bind fun _ => .ite (.fail rfl) (.pure _)

omit [ParseText] in
theorem kindOf_ftWord (lossy : Bool) : KindOf (ERd.readFtWord lossy) (FF.readFtWord lossy) :=
  (kindOf_token _ _).bind fun _ => (KindOf.u64 _).bind fun _ => (KindOf.exact _ _).bind fun _ => .ite (.fail rfl) (.pure _)

/-- **C111**, fastText models that are not supported: the first number that is not as expected is named. -/
theorem c111_fasttext_head [Scalar F] [ScalarNat F] [FloatBits F] [ConfigToml T] (lossy : Bool) (d : Bytes) (pos q : Nat)
    (h : FtHead) (hf : h.Fits) (ht : Took d pos q h.bytes) (s : String) (hs : h.complaint = some s) :
    (ERd.readFastText lossy d pos : ERes (Embeddings T FastTextSubwordVocab (NdArray F) F × Nat)) = .err (.format s) := by
  have hp : pos ≤ d.length := ht.le fun hn => by
    have := congrArg List.length hn
    simp [FtHead.bytes, FtHead.magicBytes] at this
  refine SaysAt.at' (bs := h.bytes) ?_ ht hp
  unfold ERd.readFastText FtHead.bytes
  unfold FtHead.complaint at hs
  by_cases h1 : h.magic = 793712314
  · rw [if_neg (by simpa using h1)] at hs
    by_cases h2 : 12 < h.version
    · rw [if_pos h2] at hs; cases hs
      refine .left (.append ?_ _)
      unfold ERd.readFtMagic FtHead.magicBytes
      refine .right (KindOf.u32 _) (.readU32 hf.magic) ?_
      rw [if_neg (by simp [h1, fastTextMagic]), ← List.append_nil (leBytes 4 h.version)]
      refine .right (KindOf.u32 _) (.readU32 hf.version) ?_
      rw [if_pos (by simpa [fastTextVersion] using h2)]
      exact .fail _ _ _
    · rw [if_neg h2] at hs
      have hmag : ReadsAt Embeddings.readFtMagic pos h.magicBytes () := by
        unfold Embeddings.readFtMagic FtHead.magicBytes
        refine ReadsAt.bind (.readU32 hf.magic) ?_
        rw [if_neg (by simp [h1, fastTextMagic]), ← List.append_nil (leBytes 4 h.version)]
        refine ReadsAt.bind (.readU32 hf.version) ?_
        rw [if_neg (by simp [fastTextVersion]; omega)]
        exact .pure _ _
      refine .right kindOf_ftMagic hmag ?_
      by_cases h3 : 1 ≤ h.loss ∧ h.loss ≤ 3
      · rw [if_neg (by simpa using h3)] at hs
        by_cases h4 : 1 ≤ h.model ∧ h.model ≤ 3
        · rw [if_neg (by simpa using h4)] at hs
          have hcfg : ReadsAt FF.readFtConfig (pos + h.magicBytes.length) h.configBytes h.config := by
            have := readFtConfig_readsAt (h := { h with nLabels := 0, prune := 2 ^ 63 })
              ⟨hf.magic, hf.version, hf.dims, hf.windowSize, hf.epoch, hf.minCount, hf.neg, hf.wordNgrams, hf.loss, hf.model,
                hf.bucket, hf.minN, hf.maxN, hf.lrUpdateRate, hf.samplingThreshold, hf.size, hf.nWords,
                (by decide : 0 < 2 ^ 32), hf.nTokens, (by decide : 2 ^ 63 < 2 ^ 64)⟩
              ⟨h1, (by omega : h.version ≤ 12), h3, h4, rfl, (by decide : 2 ^ 63 ≤ 2 ^ 63)⟩ (pos + h.magicBytes.length)
            exact this
          refine .right kindOf_ftConfig hcfg ?_
          unfold ERd.readFtVocab
          refine .left (.left ?_)
          unfold ERd.readFtVocabHead FtHead.vocabBytes
          refine .right (KindOf.u32 _) (.readU32 hf.size) (.right (KindOf.u32 _) (.readU32 hf.nWords)
            (.right (KindOf.u32 _) (.readU32 hf.nLabels) ?_))
          by_cases hl : h.nLabels = 0
          · rw [if_neg (by simpa using hl)] at hs
            rw [if_neg (by simp [hl])]
            refine .right (KindOf.u64 _) (.readU64 hf.nTokens) ?_
            rw [← List.append_nil (leBytes 8 h.prune)]
            refine .right (KindOf.u64 _) (.readU64 hf.prune) ?_
            by_cases h5 : h.prune < 2 ^ 63
            · rw [if_pos h5] at hs ⊢; cases hs
              exact .fail _ _ _
            · rw [if_neg h5] at hs; cases hs
          · rw [if_pos hl] at hs; cases hs
            rw [if_pos (by omega)]
            exact .fail _ _ _
        · rw [if_pos h4] at hs; cases hs
          refine .left (.append ?_ _)
          unfold ERd.readFtConfig FtHead.configBytes
          refine .right (KindOf.u32 _) (.readU32 hf.dims) (.right (KindOf.u32 _) (.readU32 hf.windowSize)
            (.right (KindOf.u32 _) (.readU32 hf.epoch) (.right (KindOf.u32 _) (.readU32 hf.minCount)
            (.right (KindOf.u32 _) (.readU32 hf.neg) (.right (KindOf.u32 _) (.readU32 hf.wordNgrams)
            (.right kindOf_loss (readLoss_readsAt h3 _) (.left (.append (readFtModel_says hf.model h4 _) _))))))))
      · rw [if_pos h3] at hs; cases hs
        refine .left (.append ?_ _)
        unfold ERd.readFtConfig FtHead.configBytes
        refine .right (KindOf.u32 _) (.readU32 hf.dims) (.right (KindOf.u32 _) (.readU32 hf.windowSize)
          (.right (KindOf.u32 _) (.readU32 hf.epoch) (.right (KindOf.u32 _) (.readU32 hf.minCount)
          (.right (KindOf.u32 _) (.readU32 hf.neg) (.right (KindOf.u32 _) (.readU32 hf.wordNgrams)
          (.left (.append (readFtLoss_says hf.loss h3 _) _)))))))
  · rw [if_pos h1] at hs; cases hs
    refine .left (.append ?_ _)
    unfold ERd.readFtMagic FtHead.magicBytes
    refine .right (KindOf.u32 _) (.readU32 hf.magic) ?_
    rw [if_pos (by simpa [fastTextMagic] using h1)]
    exact .fail _ _ _

omit [ErrorText] [ParseText] in
theorem SaysAt.replicateM {α : Type} {m : ERd α} {r : Rd α} (hk : KindOf m r) {off n : Nat} {as : List α} {bs b : Bytes}
    {e : Error} (h : ReadsAt (Rd.replicateM as.length r) off bs as) (hf : SaysAt m (off + bs.length) b e)
    (hn : as.length < n) : SaysAt (ERd.replicateM n m) off (bs ++ b) e := by
  intro pre post hp
  refine replicateM_err.mpr ⟨as.length, hn, as, off + bs.length, ?_, ?_⟩
  · have := (KindOf.replicateM hk as.length).ok (h pre (b ++ post) hp)
    simpa using this
  · have := hf (pre ++ bs) post (by simp [hp])
    simpa using this

/-- Specification: what is said of an entry that is not a word, or that the strict reader cannot decode. -/
def FtEntryMessage (lossy : Bool) (e : FtEntry) (x : Error) : Prop :=
  lossy = false ∧ TokenMessage e.word x ∨ (∃ s, LineText lossy e.word s) ∧ e.kind ≠ 0 ∧ x = .format "Non-word entry"

/-- **C111**, fastText models with other entries than words, or with words that are not UTF-8: the first such entry is
named. -/
theorem c111_fasttext_entry [Scalar F] [ScalarNat F] [FloatBits F] [ConfigToml T] (lossy : Bool) (d : Bytes) (pos q : Nat)
    (h : FtHead) (hf : h.Fits) (hs : h.Supported)
    (es : List FtEntry) (ws : List Str) (hes : ∀ e ∈ es, e.IsWord)
    (hws : es.map (fun e => FF.decodeToken lossy e.word) = ws.map .ok) (hlt : es.length < h.size) (e : FtEntry)
    (hw : (0 : UInt8) ∉ e.word) (hfr : e.freq < 2 ^ 64) (hkd : e.kind < 256) (x : Error) (hx : FtEntryMessage lossy e x)
    (ht : Took d pos q (h.bytes ++ (es.flatMap FtEntry.bytes ++ e.bytes))) :
    (ERd.readFastText lossy d pos : ERes (Embeddings T FastTextSubwordVocab (NdArray F) F × Nat)) = .err x := by
  have hp : pos ≤ d.length := ht.le fun hn => by
    have := congrArg List.length hn
    simp [FtHead.bytes, FtHead.magicBytes] at this
  refine SaysAt.at' ?_ ht hp
  unfold ERd.readFastText FtHead.bytes
  rw [List.append_assoc]
  refine .right kindOf_ftMagic (readFtMagic_readsAt hf hs _) ?_
  rw [List.append_assoc]
  refine .right kindOf_ftConfig (readFtConfig_readsAt hf hs _) (.left ?_)
  unfold ERd.readFtVocab
  refine .right kindOf_ftVocabHead (readFtVocabHead_readsAt hf hs _) (.right0 (KindOf.alloc _ _) (.alloc ?_) (.left ?_))
  · have := hf.size; unfold isizeMax; omega
  have hlen : ws.length = es.length := by simpa using (congrArg List.length hws).symm
  refine SaysAt.replicateM (as := ws) (kindOf_ftWord lossy) ?_ ?_ (by omega)
  · have := readFtWords_readsAt (f := ⟨{ h with size := es.length }, es, 0, 0, []⟩) (ws := ws) (lossy := lossy)
      ⟨⟨hf.magic, hf.version, hf.dims, hf.windowSize, hf.epoch, hf.minCount, hf.neg, hf.wordNgrams, hf.loss, hf.model,
        hf.bucket, hf.minN, hf.maxN, hf.lrUpdateRate, hf.samplingThreshold, Nat.lt_trans hlt hf.size, hf.nWords,
        hf.nLabels, hf.nTokens, hf.prune⟩, ⟨hs.magic, hs.version, hs.loss, hs.model, hs.nLabels, hs.prune⟩, rfl, hes,
        hws⟩
    rw [hlen]
    exact this _
  · intro pre post hpre
    have htok : TokenAt 0 (pre ++ (e.bytes ++ post)) pre.length e.word (pre.length + e.word.length + 1) := by
      refine .inl ⟨hw, ⟨leBytes 8 e.freq ++ leBytes 1 e.kind ++ post, ?_⟩, rfl⟩
      simp [FtEntry.bytes]
    rcases hx with ⟨hl, hx⟩ | ⟨⟨s, hsx⟩, hk0, rfl⟩
    · subst hl
      unfold ERd.readFtWord
      rw [ERd.bind_apply, ← hpre, htok.strict_err.mpr hx]
      rfl
    · refine (?_ : SaysAt (ERd.readFtWord lossy) _ e.bytes _) pre post hpre
      have hdec : FF.decodeToken lossy e.word = .ok s := by
        rw [← kinds_decodeToken, decodeToken_eq_ok.mpr hsx]; rfl
      unfold ERd.readFtWord FtEntry.bytes
      refine .right (kindOf_token _ _) (readToken_raw hw hdec _) (.right (KindOf.u64 _) (.readU64 hfr) ?_)
      rw [← List.append_nil (leBytes 1 e.kind)]
      have := ReadsAt.readExact (pre.length + (e.word ++ [0]).length + (leBytes 8 e.freq).length) (leBytes 1 e.kind)
      rw [leBytes_length, hpre] at this
      refine .right (KindOf.exact _ _) this ?_
      rw [leVal_leBytes_of_lt (by simpa using hkd), if_pos hk0]
      exact .fail _ _ _

/-- **C111**, quantized fastText models. Before that is said, the vocabulary is built, which needs different words and fewer
than 2^31 buckets (`C53`: otherwise there is a panic). -/
theorem c111_fasttext_quantized [Scalar F] [ScalarNat F] [FloatBits F] [ConfigToml T] (lossy : Bool) (d : Bytes)
    (pos q : Nat) (f : FtFile) (ws : List Str) (h : f.VocabOk lossy ws)
    (hnd : ws.Nodup) (hb : f.head.bucket < 2 ^ 31) (hq : f.flag = 1)
    (ht : Took d pos q (f.vocabBytes ++ leBytes 1 f.flag)) :
    (ERd.readFastText lossy d pos : ERes (Embeddings T FastTextSubwordVocab (NdArray F) F × Nat)) =
      .err (.format "Quantized fastText models are not supported") := by
  have hp : pos ≤ d.length := ht.le fun hn => by
    have := congrArg List.length hn
    simp [FtFile.vocabBytes, FtHead.bytes, FtHead.magicBytes] at this
  obtain ⟨ix, hix⟩ : ∃ ix, FastTextIndexer.new f.head.bucket = .ok ix := ⟨_, FastTextIndexer.new_eq_ok.mpr ⟨by omega, rfl⟩⟩
  obtain ⟨v, hv⟩ : ∃ v, SubwordVocab.new ws f.head.minN f.head.maxN ix = .ok v := by
    refine ⟨_, SubwordVocab.newWithBoundaries_eq_ok.mpr ⟨hnd, ⟨_, rfl, ?_⟩, rfl⟩⟩
    have := words_length h
    have := h.fits.size
    have := ix.buckets.toNat_lt
    unfold usizeMax
    omega
  refine SaysAt.at' ?_ ht hp
  unfold ERd.readFastText FtFile.vocabBytes FtHead.bytes
  simp only [List.append_assoc]
  refine .right kindOf_ftMagic (readFtMagic_readsAt h.fits h.supported _)
    (.right kindOf_ftConfig (readFtConfig_readsAt h.fits h.supported _) ?_)
  rw [← List.append_assoc]
  refine .right (kindOf_ftVocab _ _) (readFtVocab_readsAt h hix hv _) (.left ?_)
  unfold ERd.readFtQuantized
  rw [← List.append_nil (leBytes 1 f.flag)]
  have hr := ReadsAt.readExact (pos + f.head.magicBytes.length + f.head.configBytes.length +
    (f.head.vocabBytes ++ f.entries.flatMap FtEntry.bytes).length) (leBytes 1 f.flag)
  rw [leBytes_length] at hr
  refine .right (KindOf.exact _ _) hr ?_
  rw [leVal_leBytes_of_lt (by rw [hq]; decide), if_pos hq]
  exact .fail _ _ _

/-- What comes after the parts of the file have been read. -/
theorem ereadFastText_of [Scalar F] [ScalarNat F] [FloatBits F] [ConfigToml T] {f : FtFile} {lossy : Bool} {ws : List Str}
    (h : f.VocabOk lossy ws) (hm : f.MatrixOk)
    {ix : FastTextIndexer} (hix : FastTextIndexer.new f.head.bucket = .ok ix) {v : FastTextSubwordVocab}
    (hv : SubwordVocab.new ws f.head.minN f.head.maxN ix = .ok v) {d : Bytes} {pos q : Nat} (ht : Took d pos q f.bytes) :
    (ERd.readFastText lossy d pos : ERes (Embeddings T FastTextSubwordVocab (NdArray F) F × Nat)) =
      ERd.finishFastText f.head.config v ⟨⟨f.cols, f.rows.map (List.map FloatBits.ofBits)⟩⟩ d q := by
  have hlen : f.head.magicBytes.length = 8 := by simp [FtHead.magicBytes]
  have hp : pos ≤ d.length := by
    refine ht.le ?_
    intro hn
    have := congrArg List.length hn
    simp [FtFile.bytes, FtFile.vocabBytes, FtHead.bytes, hlen] at this
  have hq : q ≤ d.length := by
    have h1 := congrArg List.length ht.1
    simp only [List.length_append, List.length_drop] at h1
    have h2 := ht.2
    omega
  simp only [FtFile.bytes, FtFile.vocabBytes, FtHead.bytes, List.append_assoc] at ht
  obtain ⟨t1, ht⟩ := ht.split
  obtain ⟨t2, ht⟩ := ht.split
  rw [← List.append_assoc f.head.vocabBytes] at ht
  obtain ⟨t3, ht⟩ := ht.split
  obtain ⟨t4, t5⟩ := ht.split
  have hle : ∀ {p r : Nat} {bs : Bytes}, Took d p r bs → r ≤ q → p ≤ d.length := by
    intro p r bs h hr
    have := h.2
    omega
  have q5 := t5.2
  have hmat : KindOf (ERd.readFtMatrix : ERd (NdArray F)) FF.readFtMatrix :=
    (KindOf.u64 _).bind fun _ => (KindOf.u64 _).bind fun _ => (KindOf.allocArray _ _).bind fun _ =>
      (KindOf.floats _ _).bind fun _ => .pure _
  unfold ERd.readFastText
  rw [bind_of_ok (kindOf_ftMagic.ok (ReadsAt.at' (readFtMagic_readsAt h.fits h.supported _) t1 hp)),
    bind_of_ok (kindOf_ftConfig.ok (ReadsAt.at' (readFtConfig_readsAt h.fits h.supported _) t2 (hle t2 (by omega)))),
    bind_of_ok ((kindOf_ftVocab _ _).ok (ReadsAt.at' (readFtVocab_readsAt h hix hv _) t3 (hle t3 (by omega)))),
    bind_of_ok (kindOf_ftQuantized.ok (ReadsAt.at' (readFtQuantized_readsAt hm.flag _) t4 (hle t4 (by omega)))),
    bind_of_ok (hmat.ok (ReadsAt.at' (readFtMatrix_readsAt (F := F) hm _) t5 (hle t5 (by omega))))]

/-- **C111**, the end of fastText models: the matrix has too many rows for the words and buckets, or the training parameters cannot
be turned into metadata. -/
theorem c111_fasttext_end [Scalar F] [ScalarNat F] [FloatBits F] [ConfigToml T] (lossy : Bool) (d : Bytes)
    (pos q : Nat) (f : FtFile) (ws : List Str) (h : f.VocabOk lossy ws) (hm : f.MatrixOk) (hnd : ws.Nodup)
    (hb : f.head.bucket < 2 ^ 31) (ht : Took d pos q f.bytes)
    (hg : ∀ w ∈ ws, 1 ≤ f.head.minN ∧ f.head.minN ≤ f.head.maxN ∧ (f.head.bucket ≠ 0 ∨ w.length + 2 < f.head.minN)) :
    (ws.length + f.head.bucket < f.rows.length →
      (ERd.readFastText lossy d pos : ERes (Embeddings T FastTextSubwordVocab (NdArray F) F × Nat)) = .err .matrixShape) ∧
    (ws.length + f.head.bucket = f.rows.length → (ConfigToml.ofConfig f.head.config : Option T) = none →
      (ERd.readFastText lossy d pos : ERes (Embeddings T FastTextSubwordVocab (NdArray F) F × Nat)) =
        .err (.format ("Cannot serialize model metadata to TOML: " ++ ParseText.config f.head.config))) := by
  obtain ⟨ix, hix⟩ : ∃ ix, FastTextIndexer.new f.head.bucket = .ok ix := ⟨_, FastTextIndexer.new_eq_ok.mpr ⟨by omega, rfl⟩⟩
  obtain ⟨v, hv⟩ : ∃ v, SubwordVocab.new ws f.head.minN f.head.maxN ix = .ok v := by
    refine ⟨_, SubwordVocab.newWithBoundaries_eq_ok.mpr ⟨hnd, ⟨_, rfl, ?_⟩, rfl⟩⟩
    have := words_length h
    have := h.fits.size
    have := ix.buckets.toNat_lt
    unfold usizeMax
    omega
  obtain ⟨-, hw, hwl, hvl, -⟩ := ft_vocab_fields hix hv
  rw [ereadFastText_of h hm hix hv ht]
  have key : ∀ n, ws.length + f.head.bucket ≤ n → n = f.rows.length →
      ∃ r : Mat F × List F, r.1.nrows = n ∧
      (ERd.finishFastText f.head.config v ⟨⟨f.cols, f.rows.map (List.map FloatBits.ofBits)⟩⟩ :
        ERd (Embeddings T FastTextSubwordVocab (NdArray F) F)) d q =
      (if r.1.nrows ≠ ws.length + f.head.bucket then ERd.fail .matrixShape else do
        let metadata ← named (.format ("Cannot serialize model metadata to TOML: " ++ ParseText.config f.head.config))
          (Rd.lift (Res.ofOption .format (ConfigToml.ofConfig f.head.config)))
        ERd.quiet (Rd.lift (Embeddings.new (some ⟨metadata⟩) v ⟨r.1⟩ ⟨r.2⟩)) :
          ERd (Embeddings T FastTextSubwordVocab (NdArray F) F)) d q := by
    intro n hn hlen
    have hnp : (Embeddings.finishFastText f.head.config v ⟨⟨f.cols, f.rows.map (List.map FloatBits.ofBits)⟩⟩ :
        Res (Embeddings T FastTextSubwordVocab (NdArray F) F)) ≠ .panic := by
      intro h1
      rcases (finishFastText_eq_panic (T := T) (c := f.head.config) hix hv).mp h1 with
        ⟨w, hww, hn⟩ | hlt | ⟨w, hww, is, j, his, hj, hge⟩
      · exact hn (hg w hww)
      · simp at hlt; omega
      · obtain ⟨o, ho, hin⟩ := ft_subwords hix hv w (hg w hww)
        rw [his] at ho
        cases ho
        have := (hin is rfl j hj).2
        simp at hge
        omega
    unfold Embeddings.finishFastText at hnp
    unfold ERd.finishFastText
    cases hadd : addSubwordEmbeddings v (⟨f.cols, f.rows.map (List.map FloatBits.ofBits)⟩ : Mat F) with
    | err x => exact absurd hadd (addSubword_noErr v _ x)
    | panic => rw [hadd] at hnp; exact absurd rfl hnp
    | ok m' =>
      have hl := (addSubword_shape hadd).2
      simp only [List.length_map] at hl
      have e1 : ERd.quiet (Rd.lift (.ok m')) d q = .ok (m', q) := rfl
      rw [bind_of_ok e1, hwl, normalizeFirst_eq (by omega)]
      refine ⟨_, ?_, bind_of_ok rfl⟩
      simp only [Mat.nrows, List.length_append, List.length_map, List.length_take, List.length_drop]
      omega
  constructor
  · intro hlt
    obtain ⟨r, hr, hk⟩ := key _ (by omega) rfl
    rw [hk, if_pos (by omega)]
    rfl
  · intro heq hnone
    obtain ⟨r, hr, hk⟩ := key _ (by omega) rfl
    rw [hk, if_neg (by omega), hnone]
    rfl

end

/-! ## Examples -/

attribute [local instance] exampleErrorText exampleParseText exampleScalar exampleFloatText exampleScalarNat
  exampleConfigToml

/-- Text files: an empty line, a component that is not a number, lines of different lengths. -/
example : ["a 1 2\n\nb 3 4\n", "a 1 2\nb 3 x y\n", "a 1 2\nb 3\n"].map (fun t =>
      (ERd.readText false (ascii t) 0 : ERes (Embeddings Str SimpleVocab (NdArray F32) F32)).error?) =
    [some (.format "Spurious empty line"),
      some (.format "Cannot parse vector component 'x': invalid float literal"), some .matrixShape] := by
  decide +kernel

/-- So the right side of `c111_text` can be met, by each kind of error. -/
example : TableMessage F32 false none ((ascii "a 1 2\nb 3 x y\n").drop 0)
      (.format "Cannot parse vector component 'x': invalid float literal") ∧
    TableMessage F32 false none ((ascii "a 1 2\nb 3\n").drop 0) .matrixShape ∧
    TableMessage F32 false none ([97, 255, 32, 49, 10].drop 0) (.format "Token contains invalid UTF-8: invalid utf-8") ∧
    ¬ TableMessage F32 true none ([97, 255, 32, 49, 10].drop 0) (.format "Token contains invalid UTF-8: invalid utf-8") := by
  have h (lossy : Bool) (d : Bytes) (e : Error) :
      (ERd.readText lossy d 0 : ERes (Embeddings Str SimpleVocab (NdArray F32) F32)).error? = some e ↔
        TableMessage F32 lossy none (d.drop 0) e := by
    rw [← (c111_text (T := Str) lossy d 0).2 e]
    cases (ERd.readText lossy d 0 : ERes (Embeddings Str SimpleVocab (NdArray F32) F32)) <;> simp [ERes.error?]
  simp only [← h]
  decide +kernel

/-- Text files with a first line: wrong number of words, wrong number of components, no number. -/
example : ["3 2\na 1 2\nb 3 4\n", "2 3\na 1 2\nb 3 4\n", "2 x\na 1 2\n", "2 2\na 1 2\nb 3 4 5\n", "2 2\na 1 2\nb 3 4\n"].map (fun t =>
      (ERd.readTextDims false (ascii t) 0 : ERes (Embeddings Str SimpleVocab (NdArray F32) F32)).error?) =
    [some (.format "Incorrect vocabulary size, expected: 3, got: 2"),
      some (.format "Incorrect embedding dimensionality, expected: 3, got: 2"),
      some (.format "Cannot parse shape component 'x': invalid digit found in string"), some .matrixShape, none] := by
  decide +kernel

/-- A first line as in `c111_text_dims`, and one as in `c111_number`. -/
example : ShapeLine (ascii "2 +3\na") 0 2 3 5 ∧ ShapeLineMessage (ascii "2 x\n") 0
    (.format "Cannot parse shape component 'x': invalid digit found in string") ∧
    ERd.readNumber 10 (ascii "2 x\n") 2 = .err (.format "Cannot parse shape component 'x': invalid digit found in string") := by
  rw [← readShapeLine_ok, ← readShapeLine_err]
  decide +kernel

/-- word2vec files: a first line without a number, a vector that is cut off, a word that is not UTF-8. -/
example : [ascii "1 \n", ascii "1 1\na 123", ascii "1 1\n" ++ [255, 32, 1, 2, 3, 4], ascii "1 1\na 1234"].map (fun d =>
      (ERd.readWord2vec false d 0 : ERes (Embeddings Str SimpleVocab (NdArray F32) F32 × Nat)).error?) =
    [some (.format "Cannot parse shape component '': invalid digit found in string"),
      some (.read "Cannot read word embedding"), some (.format "Token contains invalid UTF-8: invalid utf-8"), none] := by
  decide +kernel

/-- floret files: no bucket, no component, n-gram lengths, number of hashes, numbers of components and of lines, and a first
line that ends too early: then the rest of the number before its last digit is taken for the number. -/
example : ["0 1 1 1 1 1 < >\n", "1 0 1 1 1 1 < >\n", "1 1 2 1 1 1 < >\n", "1 1 1 1 5 1 < >\n", "1 1 1 1 4294967296 1 < >\n",
      "1 1 1 1 1 1 < >\n0 1 2\n", "2 1 1 1 1 1 < >\n0 1\n", "1 2 1 1 1 1 < >\n0 1 z\n", "1 1 1", "1 1 1 1 1 1 < >\r\n0 1\r\n"].map (fun t =>
      (ERd.readFloretText (ascii t) 0 : ERes (Embeddings Str FloretSubwordVocab (NdArray F32) F32)).error?) =
    [some (.format "Expected at least 1 bucket"), some (.format "Embeddings should have at least 1 dimension"),
      some (.format "The minimum n-gram length (2) must not be larger than the maximum length (1)"),
      some (.format "The number of hashes should be between 1 and 4 (inclusive), was: 5"),
      some (.format "The number of hashes should be between 1 and 4 (inclusive), was: 0"),
      some (.format "Incorrect number of embedding components, expected: 1, got: 2"), some .matrixShape,
      some (.format "Cannot parse vector component 'z': invalid float literal"),
      some (.format "Cannot parse shape component '': invalid digit found in string"), none] := by
  decide +kernel

/-- A line of a floret file that is not UTF-8 is a read error. -/
example : (ERd.readFloretText (ascii "1 1 1 1 1 1 < >\n" ++ [255, 10]) 0 :
    ERes (Embeddings Str FloretSubwordVocab (NdArray F32) F32)).error? = some (.read "Cannot read line") := by
  decide +kernel

/-- The hypotheses of `c111_fasttext_head` can be met, for each complaint. -/
example : [{ exampleFtHead with magic := 1 }, { exampleFtHead with version := 13 }, { exampleFtHead with loss := 4 },
      { exampleFtHead with model := 0 }, { exampleFtHead with nLabels := 1 }, { exampleFtHead with prune := 0 },
      { exampleFtHead with version := 13, loss := 4 }, exampleFtHead].map FtHead.complaint =
    [some "Expected 793712314 as magic, got: 1", some "Expected 12 as version, got: 13", some "Unknown loss: 4",
      some "Unknown model: 0", some "fastText prediction models are not supported",
      some "Pruned vocabularies are not supported", some "Expected 12 as version, got: 13", none] := by
  decide +kernel

/-- The example model with an unknown loss. -/
def exampleFtLoss : FtHead := { exampleFtHead with loss := 4 }

theorem took_self (bs : Bytes) : Took bs 0 bs.length bs := ⟨by simp, by simp⟩

example : (ERd.readFastText false exampleFtLoss.bytes 0 :
    ERes (Embeddings FtConfig FastTextSubwordVocab (NdArray F32) F32 × Nat)) = .err (.format "Unknown loss: 4") :=
  c111_fasttext_head false _ 0 _ exampleFtLoss (by constructor <;> decide) (took_self _) _ (by decide +kernel)

/-- The hypotheses of `c111_fasttext_entry` can be met: the second entry is a label, or it is not UTF-8. -/
example : FtEntryMessage false ⟨[98], 3, 1⟩ (.format "Non-word entry") ∧ FtEntryMessage true ⟨[255], 3, 1⟩ (.format "Non-word entry") ∧
    FtEntryMessage false ⟨[255], 3, 1⟩ (.format "Token contains invalid UTF-8: invalid utf-8") := by
  refine ⟨.inr ⟨⟨['b'], (by decide : utf8 ['b'] = [98])⟩, by decide, rfl⟩, .inr ⟨⟨_, rfl⟩, by decide, rfl⟩, .inl ⟨rfl, ?_, rfl⟩⟩
  exact utf8Decode_none.mp (by decide +kernel)

example : (ERd.readFastText false (exampleFtHead.bytes ++ ([⟨[97], 7, 0⟩].flatMap FtEntry.bytes ++ (⟨[98], 3, 1⟩ : FtEntry).bytes)) 0 :
    ERes (Embeddings FtConfig FastTextSubwordVocab (NdArray F32) F32 × Nat)) = .err (.format "Non-word entry") := by
  refine c111_fasttext_entry false _ 0 _ exampleFtHead exampleFtHead_fits exampleFtHead_supported [⟨[97], 7, 0⟩] [['a']]
    ?_ (by decide +kernel) (by decide) ⟨[98], 3, 1⟩ (by decide) (by decide) (by decide) _
    (.inr ⟨⟨['b'], (by decide : utf8 ['b'] = [98])⟩, by decide, rfl⟩) (took_self _)
  intro e he
  simp only [List.mem_cons, List.not_mem_nil, or_false] at he
  subst he
  exact ⟨by decide, by decide, rfl⟩

/-- The hypotheses of `c111_fasttext_quantized` can be met. -/
example : (ERd.readFastText false (exampleFtFile.vocabBytes ++ leBytes 1 1) 0 :
    ERes (Embeddings FtConfig FastTextSubwordVocab (NdArray F32) F32 × Nat)) =
      .err (.format "Quantized fastText models are not supported") :=
  have h := exampleFtFile_vocabOk
  c111_fasttext_quantized false _ 0 _ { exampleFtFile with flag := 1 } _ ⟨h.fits, h.supported, h.size, h.isWord, h.decode⟩
    (by decide) (by decide) rfl (took_self _)

/-- The example model with a row too many. -/
def exampleFtLong : FtFile := { exampleFtFile with rows := [[1, 2], [3, 4], [5, 6], [7, 8], [9, 10], [11, 12]] }

theorem exampleFtFile_ngrams : ∀ w ∈ [['a'], ['b', 'c']],
    1 ≤ exampleFtFile.head.minN ∧ exampleFtFile.head.minN ≤ exampleFtFile.head.maxN ∧
      (exampleFtFile.head.bucket ≠ 0 ∨ w.length + 2 < exampleFtFile.head.minN) := by decide

/-- The hypotheses of `c111_fasttext_end` can be met: a matrix with a row too many, and parameters that cannot be turned into
metadata. -/
example : (ERd.readFastText false exampleFtLong.bytes 0 :
    ERes (Embeddings FtConfig FastTextSubwordVocab (NdArray F32) F32 × Nat)) = .err .matrixShape :=
  have h := exampleFtFile_vocabOk
  (c111_fasttext_end false _ 0 _ exampleFtLong _ ⟨h.fits, h.supported, h.size, h.isWord, h.decode⟩
    (by constructor <;> decide) (by decide) (by decide) (took_self _) exampleFtFile_ngrams).1 (by decide)

example : (@ERd.readFastText _ _ FtConfig F32 _ _ _ ⟨fun _ => none⟩ false exampleFtFile.bytes 0) =
      .err (.format "Cannot serialize model metadata to TOML: unsupported type") :=
  letI : ConfigToml FtConfig := ⟨fun _ => none⟩
  (c111_fasttext_end (T := FtConfig) (F := F32) false _ 0 _ exampleFtFile _ exampleFtFile_vocabOk
    (by constructor <;> decide) (by decide) (by decide) (took_self _) exampleFtFile_ngrams).2 (by decide) rfl

end FF
