import Verif.Model.MessagesCompat
import Verif.Props.Messages
import Verif.Props.FastText

/-!
# C110: what the readers of other formats say when the data ends too early
-/

namespace FF

open ERd Piece

/-! ## Specification: the pieces of fastText and word2vec files -/

namespace Pieces
variable [ErrorText]

/-- A token `w`, its delimiter and a field of `k` bytes with the error `e`. If the data ends in the token, it looks as if
the token ended there, without its last byte; so the end is noticed in the field, or because of the text of the token. -/
def tokenAnd (lossy : Bool) (w : Bytes) (e : Error) (k : Nat) : Piece :=
  .varied ((List.range (w.length + 1 + k)).map fun i =>
    if lossy = false ∧ utf8Decode (w.take (i - 1)) = none then
      .format ("Token contains invalid UTF-8: " ++ ErrorText.utf8 (w.take (i - 1)))
    else e)

/-- A word with its frequency and its type. -/
def ftWord (lossy : Bool) (w : Bytes) : List Piece :=
  [tokenAnd lossy w (.read "Cannot read word frequency") 8, field "Cannot read entry type" 1]

/-- A fastText file with the words `ws` and a matrix. -/
def fastText (lossy : Bool) (ws : List Bytes) (rows cols : Nat) : List Piece :=
  [field "Cannot fastText read magic" 4, field "Cannot read fastText version" 4,
   field "Cannot read number of dimensions" 4, field "Cannot read window size" 4, field "Cannot read number of epochs" 4,
   field "Cannot read minimum count" 4, field "Cannot read negative samples" 4, field "Cannot read word n-gram length" 4,
   field "Cannot read loss type" 4, field "Cannot read model type" 4, field "Cannot read number of buckets" 4,
   field "Cannot read minimum subword length" 4, field "Cannot read maximum subword length" 4,
   field "Cannot read LR update rate" 4, field "Cannot read sampling threshold" 8,
   field "Cannot read vocabulary size" 4, field "Cannot read number of words" 4, field "Cannot read number of labels" 4,
   field "Cannot read number of tokens" 8, field "Cannot read pruned vocabulary size" 8] ++
  ws.flatMap (ftWord lossy) ++
  [field "Cannot read quantization information" 1, field "Cannot read number of embedding matrix rows" 8,
   field "Cannot read number of embedding matrix columns" 8, field "Cannot read embeddings" (4 * (rows * cols))]

/-- The words of a word2vec file, each with `k` components. -/
def word2vec (lossy : Bool) (ws : List Bytes) (k : Nat) : List Piece :=
  ws.map fun w => tokenAnd lossy w (.read "Cannot read word embedding") (4 * k)

end Pieces

section
variable [ErrorText]

/-! ## Kinds -/

theorem kindOf_token (delim : UInt8) (lossy : Bool) : KindOf (ERd.readToken delim lossy) (FF.readToken delim lossy) := by
  refine (KindOf.named (e := .read "Cannot read string") (r := readUntil delim)
    ⟨fun d pos x h => nomatch h⟩).bind fun buf => ?_
  intro d pos
  unfold ERd.decodeToken FF.decodeToken
  cases lossy with
  | true => rfl
  | false => cases h : utf8Decode buf.dropLast <;> simp [Res.ofOption, ERes.bind, ERes.kinds, Rd.lift, Res.map, Error.kind]

theorem kindOf_number [ParseText] (delim : UInt8) : KindOf (ERd.readNumber delim) (FF.readNumber delim) :=
  (kindOf_token _ _).bind fun _ => .option rfl _

/-! ## Tokens -/

theorem ERd.readToken_eq {delim : UInt8} {lossy : Bool} {d w : Bytes} {pos : Nat} (h : takeThrough delim (d.drop pos) = w) :
    ERd.readToken delim lossy d pos = (ERd.decodeToken lossy w.dropLast).bind fun s => .ok (s, pos + w.length) := by
  subst h; rfl

theorem decodeToken_ok {lossy : Bool} {w : Bytes} {s : Str} :
    ERd.decodeToken lossy w = .ok s ↔ FF.decodeToken lossy w = .ok s := by
  unfold ERd.decodeToken FF.decodeToken
  cases lossy with
  | true => simp
  | false => cases h : utf8Decode w <;> simp [Res.ofOption]

/-- A token and what follows it. -/
theorem Tells.token {β : Type} {delim : UInt8} {lossy : Bool} {f : Str → ERd β} {M : Str → Nat → β → List Piece → Prop}
    {e : Error} {k : Nat} (hf : ∀ s, (f s).Tells (M s))
    (hM : ∀ s pos b ps, M s pos b ps → ∃ qs, ps = .field e k :: qs)
    (hend : ∀ s (d : Bytes) pos, d.length ≤ pos → f s d pos = .err e) :
    (ERd.readToken delim lossy >>= f).Tells fun pos b ps => ∃ w s qs, delim ∉ w ∧ FF.decodeToken lossy w = .ok s ∧
      M s (pos + (w.length + 1)) b (.field e k :: qs) ∧ ps = Pieces.tokenAnd lossy w e k :: qs := by
  intro d pos r hr
  rw [ERd.bind_apply] at hr
  by_cases hd : delim ∈ d.drop pos
  · obtain ⟨w, rest, h1, hw⟩ := List.eq_append_cons_of_mem hd
    rw [ERd.readToken_eq (h1 ▸ takeThrough_append hw rest)] at hr
    rw [List.dropLast_concat] at hr
    cases hs : ERd.decodeToken lossy w with
    | err x => rw [hs] at hr; cases hr
    | panic => rw [hs] at hr; cases hr
    | ok s =>
      rw [hs] at hr
      replace hr : f s d (pos + (w ++ [delim]).length) = .ok r := hr
      have hwl : (w ++ [delim]).length = w.length + 1 := by simp
      rw [hwl] at hr
      obtain ⟨ps, hL, h3, h4⟩ := hf s d _ r hr
      obtain ⟨qs, rfl⟩ := hM _ _ _ _ hL
      refine ⟨_, ⟨w, s, qs, hw, decodeToken_ok.mp hs, hL, rfl⟩, ?_, fun c => ?_⟩
      · rw [h3]; simp [total, len, Pieces.tokenAnd]; omega
      · rw [ERd.bind_apply]
        have h5 : (d.take c).drop pos = (w ++ delim :: rest).take (c - pos) := by rw [List.drop_take, h1]
        by_cases hc : c - pos ≤ w.length
        · have h6 : takeThrough delim ((d.take c).drop pos) = w.take (c - pos) := by
            rw [h5, List.take_append_of_le_length hc]
            exact takeThrough_none fun hm => hw (List.mem_of_mem_take hm)
          have h7 : (w.take (c - pos)).dropLast = w.take (c - pos - 1) := by
            rw [List.dropLast_eq_take, List.take_take, List.length_take]
            congr 1; omega
          rw [ERd.readToken_eq h6, h7]
          have h8 : missing (Pieces.tokenAnd lossy w e k :: qs) (c - pos) =
              some (if lossy = false ∧ utf8Decode (w.take (c - pos - 1)) = none then
                .format ("Token contains invalid UTF-8: " ++ ErrorText.utf8 (w.take (c - pos - 1))) else e) := by
            simp only [missing, Pieces.tokenAnd, List.getElem?_map, List.getElem?_range (show c - pos < w.length + 1 + k by omega),
              Option.map_some]
            rfl
          rw [h8]
          unfold ERd.decodeToken
          have hle : (d.take c).length ≤ pos + (w.take (c - pos)).length := by
            have := congrArg List.length h5
            simp only [List.length_drop, List.length_take, List.length_append, List.length_cons] at this ⊢
            omega
          cases lossy with
          | true => simp only [ERes.bind, if_true, hend _ _ _ hle]; rfl
          | false =>
            cases hu : utf8Decode (w.take (c - pos - 1)) with
            | none => rfl
            | some s' =>
              show f s' (d.take c) _ = _
              rw [hend _ _ _ hle]; simp
        · have h6 : takeThrough delim ((d.take c).drop pos) = w ++ [delim] := by
            rw [h5, List.take_append, List.take_of_length_le (by omega)]
            obtain ⟨n, hn⟩ : ∃ n, c - pos - w.length = n + 1 := ⟨c - pos - w.length - 1, by omega⟩
            rw [hn, List.take_succ_cons]
            exact takeThrough_append hw _
          rw [ERd.readToken_eq h6, List.dropLast_concat, hs]
          show f s (d.take c) (pos + (w ++ [delim]).length) = _
          rw [hwl, h4 c]
          have hsome : lossy = false → utf8Decode w = some s := by
            intro hl; subst hl
            have := decodeToken_ok.mp hs
            unfold FF.decodeToken at this
            cases hu : utf8Decode w <;> rw [hu] at this <;> cases this
            rfl
          have h8 : missing (Pieces.tokenAnd lossy w e k :: qs) (c - pos) =
              missing (.field e k :: qs) (c - (pos + (w.length + 1))) := by
            simp only [missing, Pieces.tokenAnd, List.getElem?_map, List.length_map, List.length_range]
            by_cases hc2 : c - (pos + (w.length + 1)) < k
            · rw [if_pos hc2, List.getElem?_range (by omega)]
              have : ¬ (lossy = false ∧ utf8Decode (w.take (c - pos - 1)) = none) := by
                rintro ⟨hl, hn⟩
                rw [List.take_of_length_le (by omega), hsome hl] at hn
                cases hn
              simp [this]
            · rw [if_neg hc2, List.getElem?_eq_none (by simp; omega)]
              simp only [Option.map_none, Option.none_or]
              congr 1; omega
          rw [h8]
  · exfalso
    rw [ERd.readToken_eq (takeThrough_none hd)] at hr
    cases hs : ERd.decodeToken lossy (d.drop pos).dropLast with
    | err x => rw [hs] at hr; cases hr
    | panic => rw [hs] at hr; cases hr
    | ok s =>
      rw [hs] at hr
      replace hr : f s d (pos + (d.drop pos).length) = .ok r := hr
      rw [hend s d _ (by rw [List.length_drop]; omega)] at hr
      cases hr

omit [ErrorText] in
theorem reading_end {α β : Type} {desc : String} {r : Rd α} {d : Bytes} {pos : Nat} (h : r d pos = .err .io) (g : α → ERd β) :
    (reading desc r >>= g) d pos = .err (.read desc) := by
  rw [ERd.bind_apply]
  unfold reading named
  rw [h]
  rfl

omit [ErrorText] in
theorem readExact_end {n pos : Nat} {d : Bytes} (h : d.length ≤ pos) (hn : 0 < n) : Rd.readExact n d pos = .err .io := by
  unfold Rd.readExact
  rw [if_neg (by omega), if_neg (by omega)]

omit [ErrorText] in
/-- The same step many times, with pieces that are not determined by the result. -/
theorem Tells.replicateW {α β γ : Type} {m : ERd α} {c : β → Prop} {g : β → Res γ} {p : α → γ} {enc : β → List Piece}
    (h : m.Tells fun _ a ps => ∃ w, c w ∧ g w = .ok (p a) ∧ ps = enc w) (n : Nat) :
    (ERd.replicateM n m).Tells fun _ as ps => ∃ ws : List β, ws.length = n ∧ (∀ w ∈ ws, c w) ∧
      ws.map g = as.map (fun a => .ok (p a)) ∧ ps = ws.flatMap enc := by
  induction n with
  | zero => exact (Tells.pure []).imp fun _ _ _ ⟨h1, h2⟩ => by subst h1; exact ⟨[], rfl, by simp, rfl, h2⟩
  | succ n ih =>
    refine (h.bind fun a => ih.bind fun as => Tells.pure (a :: as)).imp ?_
    rintro pos as ps ⟨a, _, _, rfl, ⟨w, hc, hg, rfl⟩, as, _, _, rfl, ⟨ws, rfl, hcs, hgs, rfl⟩, rfl, rfl⟩
    refine ⟨w :: ws, rfl, ?_, by simp [hg, hgs], by simp⟩
    intro x hx
    rcases List.mem_cons.mp hx with rfl | hx
    · exact hc
    · exact hcs x hx


/-! ## fastText -/

omit [ErrorText] in
theorem kindOf_ftMagic : KindOf ERd.readFtMagic Embeddings.readFtMagic :=
  (KindOf.u32 _).bind fun _ => .ite (.fail rfl) <| (KindOf.u32 _).bind fun _ => .ite (.fail rfl) (.pure _)

omit [ErrorText] in
theorem kindOf_ftConfig : KindOf ERd.readFtConfig FF.readFtConfig :=
  (KindOf.u32 _).bind fun _ => (KindOf.u32 _).bind fun _ => (KindOf.u32 _).bind fun _ => (KindOf.u32 _).bind fun _ =>
  (KindOf.u32 _).bind fun _ => (KindOf.u32 _).bind fun _ =>
  (show KindOf ERd.readLoss FF.readLoss from (KindOf.u32 _).bind fun _ =>
    .ite (.pure _) (.ite (.pure _) (.ite (.pure _) (.fail rfl)))).bind fun _ =>
  (show KindOf ERd.readModel FF.readModel from (KindOf.u32 _).bind fun _ =>
    .ite (.pure _) (.ite (.pure _) (.ite (.pure _) (.fail rfl)))).bind fun _ =>
  (KindOf.u32 _).bind fun _ => (KindOf.u32 _).bind fun _ => (KindOf.u32 _).bind fun _ => (KindOf.u32 _).bind fun _ =>
  (KindOf.u64 _).bind fun _ => .pure _

theorem kindOf_ftVocab (c : FtConfig) (lossy : Bool) : KindOf (ERd.readFtVocab c lossy) (FF.readFtVocab c lossy) :=
  (show KindOf ERd.readFtVocabHead FF.readFtVocabHead from
    (KindOf.u32 _).bind fun _ => (KindOf.u32 _).bind fun _ => (KindOf.u32 _).bind fun _ => .ite (.fail rfl) <|
    (KindOf.u64 _).bind fun _ => (KindOf.u64 _).bind fun _ => .ite (.fail rfl) (.pure _)).bind fun n =>
  (KindOf.alloc _ _).bind fun _ =>
  (KindOf.replicateM (show KindOf (ERd.readFtWord lossy) (FF.readFtWord lossy) from
    (kindOf_token _ _).bind fun _ => (KindOf.u64 _).bind fun _ => (KindOf.exact _ _).bind fun _ =>
    .ite (.fail rfl) (.pure _)) n).bind fun _ =>
  (KindOf.lift (noErr_fastTextNew _)).bind fun _ => .lift (noErr_newWithBoundaries (fun _ => Res.noErr_ok _) _ _ _ _ _ _)

section
variable {T F : Type}

theorem kindOf_fastTextFile [ParseText] [Scalar F] [ScalarNat F] [FloatBits F] [ConfigToml T] (lossy : Bool) :
    KindOf (ERd.readFastText lossy : ERd (Embeddings T FastTextSubwordVocab (NdArray F) F))
      (Embeddings.readFastText lossy) := by
  refine kindOf_ftMagic.bind fun _ => kindOf_ftConfig.bind fun c => (kindOf_ftVocab c lossy).bind fun v =>
    (show KindOf ERd.readFtQuantized Embeddings.readFtQuantized from
      (KindOf.exact _ _).bind fun _ => .ite (.fail rfl) (.pure _)).bind fun _ =>
    (show KindOf (ERd.readFtMatrix : ERd (NdArray F)) FF.readFtMatrix from
      (KindOf.u64 _).bind fun _ => (KindOf.u64 _).bind fun _ => (KindOf.allocArray _ _).bind fun _ =>
      (KindOf.floats _ _).bind fun _ => .pure _).bind fun s => ?_
  intro d pos
  unfold ERd.finishFastText Embeddings.finishFastText
  have h1 : Res.NoErr (addSubwordEmbeddings v s.inner) := addSubword_noErr _ _
  cases ha : addSubwordEmbeddings v s.inner with
  | err e => exact absurd ha (h1 e)
  | panic => simp [ERd.bind_apply, quiet, named, ERes.bind, ERes.kinds]
  | ok m =>
    cases hn : normalizeFirst (Vocab.wordsLen v) m with
    | err e =>
      unfold normalizeFirst at hn
      exact absurd hn (Res.noErr_bind (Res.noErr_assert _) (fun _ => Res.noErr_ok _) e)
    | panic => simp [ERd.bind_apply, hn, quiet, named, ERes.bind, ERes.kinds]
    | ok r =>
      by_cases hr : r.1.nrows = Vocab.wordsLen v + c.bucket
      · cases hc : (ConfigToml.ofConfig c : Option T) with
        | none => simp [ERd.bind_apply, hn, hr, quiet, named, ERes.bind, ERes.kinds, Res.ofOption, Error.kind]
        | some t =>
          have hx : Res.NoErr (Embeddings.new (some ⟨t⟩) v ⟨r.1⟩ ⟨r.2⟩ : Res (Embeddings T FastTextSubwordVocab (NdArray F) F)) := by
            unfold Embeddings.new
            exact Res.noErr_bind (Res.noErr_assert _) fun _ => noErr_newWithMaybeNorms (fun _ => Res.noErr_ok _) _ _ _ _
          cases hz : (Embeddings.new (some ⟨t⟩) v ⟨r.1⟩ ⟨r.2⟩ : Res (Embeddings T FastTextSubwordVocab (NdArray F) F)) with
          | err e => exact absurd hz (hx e)
          | panic => simp [ERd.bind_apply, hn, hr, hz, quiet, named, ERes.bind, ERes.kinds, Res.ofOption]
          | ok e => simp [ERd.bind_apply, hn, hr, hz, quiet, named, ERes.bind, ERes.kinds, Res.ofOption]
      · simp [ERd.bind_apply, hn, hr, quiet, named, ERes.bind, ERes.kinds, Error.kind]

theorem tells_ftWord (lossy : Bool) : (ERd.readFtWord lossy).Tells fun _ s ps =>
    ∃ w, (0 : UInt8) ∉ w ∧ FF.decodeToken lossy w = .ok s ∧ ps = Pieces.ftWord lossy w := by
  refine (Tells.token (e := .read "Cannot read word frequency") (k := 8) (fun s => (Tells.u64 _).bind fun _ =>
    (Tells.exact _ 1).bind fun _ => (Tells.pure s).guard) ?_ ?_).imp ?_
  · rintro s pos b ps ⟨_, _, _, rfl, ⟨_, rfl⟩, _⟩
    exact ⟨_, rfl⟩
  · intro s d pos h
    refine reading_end ?_ _
    unfold Rd.readU64
    rw [Rd.bind_apply, readExact_end h (by omega)]
    rfl
  · rintro pos s ps ⟨w, s', qs, h1, h2, ⟨_, _, _, he, ⟨_, rfl⟩, _, _, _, rfl, ⟨_, rfl⟩, _, rfl, rfl⟩, rfl⟩
    cases he
    exact ⟨w, h1, h2, rfl⟩

omit [ErrorText] in
theorem tells_ftConfig : ERd.readFtConfig.Tells fun _ _ ps => ps =
    [Pieces.field "Cannot read number of dimensions" 4, Pieces.field "Cannot read window size" 4,
     Pieces.field "Cannot read number of epochs" 4, Pieces.field "Cannot read minimum count" 4,
     Pieces.field "Cannot read negative samples" 4, Pieces.field "Cannot read word n-gram length" 4,
     Pieces.field "Cannot read loss type" 4, Pieces.field "Cannot read model type" 4,
     Pieces.field "Cannot read number of buckets" 4, Pieces.field "Cannot read minimum subword length" 4,
     Pieces.field "Cannot read maximum subword length" 4, Pieces.field "Cannot read LR update rate" 4,
     Pieces.field "Cannot read sampling threshold" 8] := by
  have hl : ERd.readLoss.Tells fun _ _ ps => ps = [Pieces.field "Cannot read loss type" 4] := by
    refine ((Tells.u32 _).bind (M := fun _ _ _ ps => ps = []) fun n => ?_).imp ?_
    · refine Tells.imp ((Tells.pure _).ite ((Tells.pure _).ite ((Tells.pure _).ite (Tells.fail _)))) ?_
      intro pos a ps h
      repeat' split at h
      all_goals first | exact h.2 | exact h.elim
    · rintro pos a ps ⟨_, _, _, rfl, ⟨_, rfl⟩, rfl⟩; rfl
  have hm : ERd.readModel.Tells fun _ _ ps => ps = [Pieces.field "Cannot read model type" 4] := by
    refine ((Tells.u32 _).bind (M := fun _ _ _ ps => ps = []) fun n => ?_).imp ?_
    · refine Tells.imp ((Tells.pure _).ite ((Tells.pure _).ite ((Tells.pure _).ite (Tells.fail _)))) ?_
      intro pos a ps h
      repeat' split at h
      all_goals first | exact h.2 | exact h.elim
    · rintro pos a ps ⟨_, _, _, rfl, ⟨_, rfl⟩, rfl⟩; rfl
  refine ((Tells.u32 _).bind fun _ => (Tells.u32 _).bind fun _ => (Tells.u32 _).bind fun _ => (Tells.u32 _).bind fun _ =>
    (Tells.u32 _).bind fun _ => (Tells.u32 _).bind fun _ => hl.bind fun _ => hm.bind fun _ => (Tells.u32 _).bind fun _ =>
    (Tells.u32 _).bind fun _ => (Tells.u32 _).bind fun _ => (Tells.u32 _).bind fun _ => (Tells.u64 _).bind fun _ =>
    Tells.pure _).imp ?_
  rintro pos c ps ⟨_, _, _, rfl, ⟨_, rfl⟩, _, _, _, rfl, ⟨_, rfl⟩, _, _, _, rfl, ⟨_, rfl⟩, _, _, _, rfl, ⟨_, rfl⟩,
    _, _, _, rfl, ⟨_, rfl⟩, _, _, _, rfl, ⟨_, rfl⟩, _, _, _, rfl, rfl, _, _, _, rfl, rfl, _, _, _, rfl, ⟨_, rfl⟩,
    _, _, _, rfl, ⟨_, rfl⟩, _, _, _, rfl, ⟨_, rfl⟩, _, _, _, rfl, ⟨_, rfl⟩, _, _, _, rfl, ⟨_, rfl⟩, _, rfl⟩
  rfl

theorem tells_ftVocab (c : FtConfig) (lossy : Bool) : (ERd.readFtVocab c lossy).Tells fun _ v ps =>
    ∃ ws : List Bytes, (∀ w ∈ ws, (0 : UInt8) ∉ w) ∧ ws.map (FF.decodeToken lossy) = v.words.map .ok ∧ ps =
    [Pieces.field "Cannot read vocabulary size" 4, Pieces.field "Cannot read number of words" 4,
     Pieces.field "Cannot read number of labels" 4, Pieces.field "Cannot read number of tokens" 8,
     Pieces.field "Cannot read pruned vocabulary size" 8] ++ ws.flatMap (Pieces.ftWord lossy) := by
  have hh : ERd.readFtVocabHead.Tells fun _ _ ps => ps =
    [Pieces.field "Cannot read vocabulary size" 4, Pieces.field "Cannot read number of words" 4,
     Pieces.field "Cannot read number of labels" 4, Pieces.field "Cannot read number of tokens" 8,
     Pieces.field "Cannot read pruned vocabulary size" 8] := by
    refine ((Tells.u32 _).bind fun _ => (Tells.u32 _).bind fun _ => (Tells.u32 _).bind fun _ =>
      ((Tells.u64 _).bind fun _ => (Tells.u64 _).bind fun _ => (Tells.pure _).guard).guard).imp ?_
    rintro pos a ps ⟨_, _, _, rfl, ⟨_, rfl⟩, _, _, _, rfl, ⟨_, rfl⟩, _, _, _, rfl, ⟨_, rfl⟩, _, _, _, _, rfl, ⟨_, rfl⟩,
      _, _, _, rfl, ⟨_, rfl⟩, _, _, rfl⟩
    rfl
  refine (hh.bind fun n => Tells.still.bind0 fun _ => (Tells.replicateW (p := id) (tells_ftWord lossy) n).bind fun ws =>
    Tells.still.bind0 fun _ => Tells.still).imp ?_
  rintro pos v ps ⟨n, _, _, rfl, rfl, _, _, ws, _, _, rfl, ⟨raw, _, h1, h2, rfl⟩, _, _, h3, rfl⟩
  refine ⟨raw, h1, ?_, by simp⟩
  rw [h2, (parts_of_new h3).1]
  rfl

theorem tells_fastText [ParseText] [Scalar F] [ScalarNat F] [FloatBits F] [ConfigToml T] (lossy : Bool) :
    (ERd.readFastText lossy : ERd (Embeddings T FastTextSubwordVocab (NdArray F) F)).Tells fun _ e ps =>
      ∃ ws : List Bytes, (∀ w ∈ ws, (0 : UInt8) ∉ w) ∧ ws.map (FF.decodeToken lossy) = e.vocab.words.map .ok ∧
        ps = Pieces.fastText lossy ws e.storage.inner.rows.length e.storage.inner.cols := by
  have hm : ERd.readFtMagic.Tells fun _ _ ps =>
      ps = [Pieces.field "Cannot fastText read magic" 4, Pieces.field "Cannot read fastText version" 4] := by
    refine ((Tells.u32 _).bind fun _ => ((Tells.u32 _).bind fun _ => (Tells.pure _).guard).guard).imp ?_
    rintro pos a ps ⟨_, _, _, rfl, ⟨_, rfl⟩, _, _, _, _, rfl, ⟨_, rfl⟩, _, _, rfl⟩
    rfl
  have hq : ERd.readFtQuantized.Tells fun _ _ ps => ps = [Pieces.field "Cannot read quantization information" 1] := by
    refine ((Tells.exact _ _).bind fun _ => (Tells.pure _).guard).imp ?_
    rintro pos a ps ⟨_, _, _, rfl, ⟨_, rfl⟩, _, _, rfl⟩
    rfl
  have hx : (ERd.readFtMatrix : ERd (NdArray F)).Tells fun _ a ps => ps =
      [Pieces.field "Cannot read number of embedding matrix rows" 8,
       Pieces.field "Cannot read number of embedding matrix columns" 8,
       Pieces.field "Cannot read embeddings" (4 * (a.inner.rows.length * a.inner.cols))] := by
    refine ((Tells.u64 _).bind fun _ => (Tells.u64 _).bind fun _ => Tells.still.bind0 fun _ =>
      (Tells.floats _ _).bind fun _ => Tells.pure _).imp ?_
    rintro pos a ps ⟨m, _, _, rfl, ⟨_, rfl⟩, n, _, _, rfl, ⟨_, rfl⟩, _, _, xs, _, _, rfl, ⟨_, rfl⟩, rfl, rfl⟩
    simp [Pieces.field, Mat.ofFlat]
  refine (hm.bind fun _ => tells_ftConfig.bind fun c => (tells_ftVocab c lossy).bind fun v => hq.bind fun _ =>
    hx.bind fun s => Tells.still.bind0 fun m => Tells.still.bind0 fun r => (Tells.still.bind0 fun t => Tells.still).guard).imp ?_
  rintro pos e ps ⟨_, _, _, rfl, rfl, c, _, _, rfl, rfl, v, _, _, rfl, ⟨ws, h1, h2, rfl⟩, _, _, _, rfl, rfl, s, _, _, rfl, rfl,
    m, ha, r, hn, _, t, _, he, rfl⟩
  have hs := addSubword_shape ha
  have hr : r.1.cols = m.cols ∧ r.1.rows.length = m.rows.length := by
    have hle : Vocab.wordsLen v ≤ m.rows.length := by
      unfold normalizeFirst at hn
      obtain ⟨_, h, _⟩ := Res.bind_eq_ok.mp hn
      by_cases hlt : Vocab.wordsLen v ≤ m.rows.length
      · exact hlt
      · simp [Res.assert, Mat.nrows, hlt] at h
    rw [normalizeFirst_eq hle] at hn
    cases hn
    exact ⟨rfl, by simp; omega⟩
  have hev : e.vocab = v ∧ e.storage = ⟨r.1⟩ := by
    unfold Embeddings.new Embeddings.newWithMaybeNorms at he
    obtain ⟨_, _, he⟩ := Res.bind_eq_ok.mp he
    obtain ⟨_, _, he⟩ := Res.bind_eq_ok.mp he
    obtain ⟨_, _, he⟩ := Res.bind_eq_ok.mp he
    cases he
    exact ⟨rfl, rfl⟩
  refine ⟨ws, h1, by rw [hev.1]; exact h2, ?_⟩
  rw [hev.2, hr.1, hr.2, hs.1, hs.2]
  simp [Pieces.fastText]

/-- **C110**, fastText files. -/
theorem c110_fasttext [ParseText] [Scalar F] [ScalarNat F] [FloatBits F] [ConfigToml T] (lossy : Bool) :
    SaysWhere (ERd.readFastText lossy : ERd (Embeddings T FastTextSubwordVocab (NdArray F) F))
      (Embeddings.readFastText lossy) fun _ e ps =>
      ∃ ws : List Bytes, (∀ w ∈ ws, (0 : UInt8) ∉ w) ∧ ws.map (FF.decodeToken lossy) = e.vocab.words.map .ok ∧
        ps = Pieces.fastText lossy ws e.storage.inner.rows.length e.storage.inner.cols :=
  .of (kindOf_fastTextFile lossy) (tells_fastText lossy)

/-! ## word2vec -/

theorem kindOf_word2vecBody [FloatBits F] (lossy : Bool) (n k : Nat) :
    KindOf (ERd.readWord2vecBody lossy n k : ERd (Embeddings T SimpleVocab (NdArray F) F)) (do
      allocArray 4 [n, k]
      Rd.alloc 24 n
      let entries ← Rd.replicateM n (Embeddings.readWord2vecEntry (F := F) k lossy)
      let vocab ← Rd.lift (SimpleVocab.new (entries.map (·.1)))
      Rd.lift (Embeddings.newWithMaybeNorms none vocab (NdArray.mk ⟨k, entries.map (·.2)⟩) none)) :=
  (KindOf.allocArray _ _).bind fun _ => (KindOf.alloc _ _).bind fun _ =>
  (KindOf.replicateM ((kindOf_token _ _).bind fun _ => (KindOf.floats _ _).bind fun _ => .pure _) n).bind fun _ =>
  (KindOf.lift (noErr_simple _)).bind fun _ => .lift (noErr_newWithMaybeNorms (fun _ => Res.noErr_ok _) _ _ _ _)

theorem kindOf_word2vecRaw [ParseText] [FloatBits F] (lossy : Bool) :
    KindOf (ERd.readWord2vecRaw lossy : ERd (Embeddings T SimpleVocab (NdArray F) F)) (Embeddings.readWord2vecRaw lossy) := by
  intro d pos
  refine Eq.trans ?_ (((kindOf_number 32).bind fun n => (kindOf_number 10).bind fun k =>
    kindOf_word2vecBody (T := T) (F := F) lossy n k) d pos)
  unfold ERd.readWord2vecRaw readShapeLine
  simp only [ERd.bind_apply]
  cases ERd.readNumber 32 d pos with
  | ok a => cases h : ERd.readNumber 10 d a.2 <;> simp [ERes.bind, h]
  | err e => rfl
  | panic => rfl

theorem kindOf_word2vec [ParseText] [Scalar F] [FloatBits F] (lossy : Bool) :
    KindOf (ERd.readWord2vec lossy : ERd (Embeddings T SimpleVocab (NdArray F) F)) (Embeddings.readWord2vec lossy) :=
  (kindOf_word2vecRaw lossy).bind fun _ => .lift (noErr_normalizeRead _)

theorem tells_word2vecBody [FloatBits F] (lossy : Bool) (n k : Nat) (hk : 0 < k) :
    (ERd.readWord2vecBody lossy n k : ERd (Embeddings T SimpleVocab (NdArray F) F)).Tells fun _ e ps =>
      ∃ ws : List Bytes, (∀ w ∈ ws, (32 : UInt8) ∉ w) ∧
        ws.map (fun w => (FF.decodeToken lossy w).map (trimBy isWhitespace)) = e.vocab.words.map .ok ∧
        ps = Pieces.word2vec lossy ws k := by
  have he : (ERd.readWord2vecEntry k lossy : ERd (Str × List F)).Tells fun _ a ps =>
      ∃ w, (32 : UInt8) ∉ w ∧ (FF.decodeToken lossy w).map (trimBy isWhitespace) = .ok a.1 ∧
        ps = [Pieces.tokenAnd lossy w (.read "Cannot read word embedding") (4 * k)] := by
    refine (Tells.token (e := .read "Cannot read word embedding") (k := 4 * k) (fun s => (Tells.floats _ k).bind fun _ =>
      Tells.pure _) ?_ ?_).imp ?_
    · rintro s pos b ps ⟨_, _, _, rfl, ⟨_, rfl⟩, _⟩
      exact ⟨_, rfl⟩
    · intro s d pos h
      refine reading_end ?_ _
      unfold Rd.readF32s
      rw [Rd.bind_apply, readExact_end h (by omega)]
      rfl
    · rintro pos a ps ⟨w, s, qs, h1, h2, ⟨xs, _, _, h, ⟨_, rfl⟩, rfl, rfl⟩, rfl⟩
      cases h
      exact ⟨w, h1, by rw [h2]; rfl, rfl⟩
  refine (Tells.still.bind0 fun _ => Tells.still.bind0 fun _ => (Tells.replicateW (p := Prod.fst) he n).bind fun es =>
    Tells.still.bind0 fun v => Tells.still).imp ?_
  rintro pos e ps ⟨_, _, _, _, es, _, _, rfl, ⟨ws, _, h1, h2, rfl⟩, v, hv, he, rfl⟩
  have hev : e.vocab = v := by
    unfold Embeddings.newWithMaybeNorms at he
    obtain ⟨_, _, he⟩ := Res.bind_eq_ok.mp he
    obtain ⟨_, _, he⟩ := Res.bind_eq_ok.mp he
    cases he; rfl
  refine ⟨ws, h1, ?_, ?_⟩
  · rw [hev, words_of_new hv, h2, List.map_map]; rfl
  · rw [List.append_nil]
    exact List.map_eq_flatMap.symm

omit [ErrorText] in
theorem takeThrough_of_take {delim : UInt8} {x : Bytes} {m : Nat} (h : (takeThrough delim x).length ≤ m) :
    takeThrough delim (x.take m) = takeThrough delim x := by
  induction x generalizing m with
  | nil => rw [List.take_nil]
  | cons b x ih =>
    unfold takeThrough at h
    cases m with
    | zero => split at h <;> simp at h
    | succ m =>
      rw [List.take_succ_cons]
      unfold takeThrough
      split
      · rfl
      · rename_i hb
        rw [if_neg hb] at h
        rw [ih (by simpa using h)]

theorem ereadToken_take {delim : UInt8} {lossy : Bool} {d : Bytes} {pos c q : Nat} {s : Str}
    (h : ERd.readToken delim lossy d pos = .ok (s, q)) (hc : q ≤ c) :
    ERd.readToken delim lossy (d.take c) pos = .ok (s, q) := by
  rw [ERd.readToken_eq rfl] at h
  have hq : pos + (takeThrough delim (d.drop pos)).length = q := by
    cases hx : ERd.decodeToken lossy (takeThrough delim (d.drop pos)).dropLast with
    | ok t => rw [hx] at h; cases h; rfl
    | err x => rw [hx] at h; cases h
    | panic => rw [hx] at h; cases h
  have h2 : takeThrough delim ((d.take c).drop pos) = takeThrough delim (d.drop pos) := by
    rw [List.drop_take]
    exact takeThrough_of_take (by omega)
  rw [ERd.readToken_eq h2]
  exact h

theorem ereadNumber_take [ParseText] {delim : UInt8} {d : Bytes} {pos c q n : Nat}
    (h : ERd.readNumber delim d pos = .ok (n, q)) (hc : q ≤ c) : ERd.readNumber delim (d.take c) pos = .ok (n, q) := by
  unfold ERd.readNumber at h ⊢
  rw [ERd.bind_apply] at h ⊢
  cases ht : ERd.readToken delim false d pos with
  | err x => rw [ht] at h; cases h
  | panic => rw [ht] at h; cases h
  | ok r =>
    rw [ht] at h
    obtain ⟨s, q'⟩ := r
    simp only [ERes.bind] at h
    cases hp : parseUsize s with
    | none => simp [hp, named, Res.ofOption] at h
    | some k =>
      simp [hp, named, Res.ofOption] at h
      obtain ⟨rfl, rfl⟩ := h
      rw [ereadToken_take ht hc]
      simp [ERes.bind, hp, named, Res.ofOption]

theorem word2vecRaw_cut [ParseText] [FloatBits F] (lossy : Bool) (d : Bytes) (pos q : Nat)
    (e : Embeddings T SimpleVocab (NdArray F) F) (h : Embeddings.readWord2vecRaw lossy d pos = .ok (e, q))
    (hk : 0 < e.storage.inner.cols) :
    ∃ (n p1 p2 : Nat) (ws : List Bytes), FF.readNumber 32 d pos = .ok (n, p1) ∧
      FF.readNumber 10 d p1 = .ok (e.storage.inner.cols, p2) ∧ (∀ w ∈ ws, (32 : UInt8) ∉ w) ∧
      ws.map (fun w => (FF.decodeToken lossy w).map (trimBy isWhitespace)) = e.vocab.words.map .ok ∧
      q = p2 + total (Pieces.word2vec lossy ws e.storage.inner.cols) ∧
      ∀ c, p2 ≤ c → ERd.readWord2vecRaw lossy (d.take c) pos =
        match missing (Pieces.word2vec lossy ws e.storage.inner.cols) (c - p2) with
        | some x => .err x
        | none => .ok (e, q) := by
  have h0 := ok_of_kinds ((kindOf_word2vecRaw lossy d pos).trans h)
  unfold ERd.readWord2vecRaw readShapeLine at h0
  simp only [ERd.bind_apply] at h0
  cases h1 : ERd.readNumber 32 d pos with
  | err x => rw [h1] at h0; cases h0
  | panic => rw [h1] at h0; cases h0
  | ok r1 =>
  obtain ⟨n, p1⟩ := r1
  rw [h1] at h0
  simp only [ERes.bind] at h0
  cases h2 : ERd.readNumber 10 d p1 with
  | err x => rw [h2] at h0; cases h0
  | panic => rw [h2] at h0; cases h0
  | ok r2 =>
  obtain ⟨k, p2⟩ := r2
  rw [h2] at h0
  replace h0 : ERd.readWord2vecBody lossy n k d p2 = .ok (e, q) := h0
  have hcols : e.storage.inner.cols = k := by
    have hb := (kindOf_word2vecBody (T := T) (F := F) lossy n k d p2).symm
    rw [h0] at hb
    simp only [Rd.bind_apply, ERes.kinds] at hb
    obtain ⟨_, _, hb⟩ := Res.bind_eq_ok.mp hb
    obtain ⟨_, _, hb⟩ := Res.bind_eq_ok.mp hb
    obtain ⟨es, _, hb⟩ := Res.bind_eq_ok.mp hb
    obtain ⟨v, _, hb⟩ := Res.bind_eq_ok.mp hb
    unfold Rd.lift at hb
    obtain ⟨e', he, hb⟩ := Res.map_eq_ok.mp hb
    cases hb
    unfold Embeddings.newWithMaybeNorms at he
    obtain ⟨_, _, he⟩ := Res.bind_eq_ok.mp he
    obtain ⟨_, _, he⟩ := Res.bind_eq_ok.mp he
    cases he; rfl
  rw [hcols] at hk ⊢
  obtain ⟨ps, ⟨ws, h3, h4, rfl⟩, h5, h6⟩ := tells_word2vecBody lossy n k hk d p2 (e, q) h0
  refine ⟨n, p1, p2, ws, ?_, ?_, h3, h4, h5, fun c hc => ?_⟩
  · rw [← kindOf_number 32 d pos, h1]; rfl
  · rw [← kindOf_number 10 d p1, h2]; rfl
  · refine Eq.trans ?_ (h6 c)
    have hp : p1 ≤ p2 := by
      have hr := (kindOf_number 10 d p1).symm
      rw [h2] at hr
      simp only [ERes.kinds] at hr
      unfold FF.readNumber FF.readToken readUntil at hr
      simp only [Rd.bind_apply] at hr
      obtain ⟨r, hr1, hr⟩ := Res.bind_eq_ok.mp hr
      obtain ⟨r', hr2, hr1⟩ := Res.bind_eq_ok.mp hr1
      cases hr2
      unfold Rd.lift at hr hr1
      obtain ⟨_, _, hr1⟩ := Res.map_eq_ok.mp hr1
      obtain ⟨_, _, hr⟩ := Res.map_eq_ok.mp hr
      cases hr1
      cases hr
      omega
    unfold ERd.readWord2vecRaw readShapeLine
    simp only [ERd.bind_apply]
    rw [ereadNumber_take h1 (by omega)]
    simp only [ERes.bind]
    rw [ereadNumber_take h2 hc]
    rfl

/-- **C110**, word2vec files with components: if the data ends behind the first line, in a word or its components, the error
is about the components of that word, or about the text of what is there of the word. -/
theorem c110_word2vec [ParseText] [Scalar F] [FloatBits F] (lossy : Bool) :
    (∀ d pos, (ERd.readWord2vec lossy d pos : ERes (Embeddings T SimpleVocab (NdArray F) F × Nat)).kinds =
      Embeddings.readWord2vec lossy d pos) ∧
    ∀ (d : Bytes) (pos q : Nat) (e : Embeddings T SimpleVocab (NdArray F) F),
      Embeddings.readWord2vec lossy d pos = .ok (e, q) → 0 < e.storage.inner.cols →
    ∃ (n p1 p2 : Nat) (ws : List Bytes), FF.readNumber 32 d pos = .ok (n, p1) ∧
      FF.readNumber 10 d p1 = .ok (e.storage.inner.cols, p2) ∧ (∀ w ∈ ws, (32 : UInt8) ∉ w) ∧
      ws.map (fun w => (FF.decodeToken lossy w).map (trimBy isWhitespace)) = e.vocab.words.map .ok ∧
      q = p2 + total (Pieces.word2vec lossy ws e.storage.inner.cols) ∧
      ∀ c, p2 ≤ c → ERd.readWord2vec lossy (d.take c) pos =
        match missing (Pieces.word2vec lossy ws e.storage.inner.cols) (c - p2) with
        | some x => .err x
        | none => .ok (e, q) := by
  refine ⟨kindOf_word2vec lossy, fun d pos q e h hk => ?_⟩
  unfold Embeddings.readWord2vec at h
  rw [Rd.bind_apply] at h
  obtain ⟨r, h1, h2⟩ := Res.bind_eq_ok.mp h
  obtain ⟨e0, q0⟩ := r
  unfold Rd.lift at h2
  obtain ⟨e', hn, h2⟩ := Res.map_eq_ok.mp h2
  cases h2
  have hs : e.vocab = e0.vocab ∧ e.storage.inner.cols = e0.storage.inner.cols := by
    unfold Embeddings.normalizeRead Embeddings.new Embeddings.newWithMaybeNorms at hn
    obtain ⟨_, _, hn⟩ := Res.bind_eq_ok.mp hn
    obtain ⟨_, _, hn⟩ := Res.bind_eq_ok.mp hn
    obtain ⟨_, _, hn⟩ := Res.bind_eq_ok.mp hn
    cases hn
    exact ⟨rfl, rfl⟩
  rw [hs.2] at hk ⊢
  rw [hs.1]
  obtain ⟨n, p1, p2, ws, a1, a2, a3, a4, a5, a6⟩ := word2vecRaw_cut lossy d pos q0 e0 h1 hk
  refine ⟨n, p1, p2, ws, a1, a2, a3, a4, a5, fun c hc => ?_⟩
  unfold ERd.readWord2vec
  rw [ERd.bind_apply, a6 c hc]
  cases missing (Pieces.word2vec lossy ws e0.storage.inner.cols) (c - p2) with
  | some x => rfl
  | none => simp [ERes.bind, quiet, named, hn]

end

end

/-! ## Examples -/

@[instance_reducible] def exampleParseText : ParseText :=
  ⟨fun _ => "invalid digit found in string", fun _ => "invalid float literal", fun _ => "unsupported type"⟩

attribute [local instance] exampleErrorText exampleParseText exampleScalar exampleScalarNat exampleConfigToml

/-- The example model is accepted, so `c110_fasttext` applies to each of its beginnings. -/
example : ∃ e, (Embeddings.readFastText false exampleFtFile.bytes 0 :
    Res (Embeddings FtConfig FastTextSubwordVocab (NdArray F32) F32 × Nat)) = .ok (e, 172) := by
  have h : (Embeddings.readFastText false exampleFtFile.bytes 0 :
      Res (Embeddings FtConfig FastTextSubwordVocab (NdArray F32) F32 × Nat)).map (·.2) = .ok 172 := by decide +kernel
  obtain ⟨⟨e, q⟩, h1, h2⟩ := Res.map_eq_ok.mp h
  cases h2
  exact ⟨e, h1⟩

/-- The error of a result, only for examples. -/
def ERes.error? {α : Type} : ERes α → Option Error
  | .err e => some e
  | _ => none

/-- What is said of some beginnings of that model: within the version, within the second word, within its frequency, before
its type, within the matrix. The word `bc` without its last letter is taken for a word, the frequency is what is missing. -/
example : [5, 105, 113, 114, 170].map (fun c => (ERd.readFastText false (exampleFtFile.bytes.take c) 0 :
      ERes (Embeddings FtConfig FastTextSubwordVocab (NdArray F32) F32 × Nat)).error?) =
    [some (.read "Cannot read fastText version"), some (.read "Cannot read word frequency"),
      some (.read "Cannot read word frequency"), some (.read "Cannot read entry type"),
      some (.read "Cannot read embeddings")] := by
  decide +kernel

/-- A word2vec file with a word of two bytes in UTF-8. -/
def exampleWord2vecUtf8 : Bytes := ascii "1 1\n" ++ [195, 164, 32, 0, 0, 128, 63]

/-- It is accepted, so the hypotheses of `c110_word2vec` can be met. -/
example : (Embeddings.readWord2vec false exampleWord2vecUtf8 0 : Res (Embeddings FtConfig SimpleVocab (NdArray F32) F32 × Nat)).map
    (fun r => (r.1.vocab.words, r.1.storage.inner.cols, r.2)) = .ok ([['ä']], 1, 11) := by
  decide +kernel

/-- If it ends behind the word, the first byte of the word is taken for the word. -/
example : (ERd.readWord2vec false (exampleWord2vecUtf8.take 6) 0 : ERes (Embeddings FtConfig SimpleVocab (NdArray F32) F32 × Nat)) =
      .err (.format "Token contains invalid UTF-8: invalid utf-8") ∧
    (ERd.readWord2vec true (exampleWord2vecUtf8.take 6) 0 : ERes (Embeddings FtConfig SimpleVocab (NdArray F32) F32 × Nat)) =
      .err (.read "Cannot read word embedding") ∧
    (ERd.readWord2vec false (exampleWord2vecUtf8.take 9) 0 : ERes (Embeddings FtConfig SimpleVocab (NdArray F32) F32 × Nat)) =
      .err (.read "Cannot read word embedding") := by
  decide +kernel

end FF
