import Verif.Model.Messages
import Verif.Props.ErrorKinds
import Verif.Props.Position
import Verif.Props.Malformed

/-!
# Readers with whole errors: kinds, and the pieces of data they ask for
-/

namespace FF

namespace ERd

@[simp] theorem pure_apply {α : Type} (a : α) (d : Bytes) (pos : Nat) : (pure a : ERd α) d pos = .ok (a, pos) := rfl
@[simp] theorem fail_apply {α : Type} (e : Error) (d : Bytes) (pos : Nat) : (fail e : ERd α) d pos = .err e := rfl
theorem bind_apply {α β : Type} (p : ERd α) (f : α → ERd β) (d : Bytes) (pos : Nat) :
    (p >>= f) d pos = (p d pos).bind fun r => f r.1 d r.2 := rfl

/-! ## Kinds -/

/-- `m` is `r` with whole errors. -/
def KindOf {α : Type} (m : ERd α) (r : Rd α) : Prop := ∀ d pos, (m d pos).kinds = r d pos

namespace KindOf
variable {α β : Type}

theorem named {e : Error} {r : Rd α} (h : RdKinds [e.kind] r) : KindOf (named e r) r := by
  intro d pos
  unfold ERd.named
  cases hr : r d pos with
  | ok a => rfl
  | err x =>
    have := h.kinds d pos x hr
    simp only [List.mem_singleton] at this
    rw [this]; rfl
  | panic => rfl

theorem quiet {r : Rd α} (h : RdKinds [] r) : KindOf (quiet r) r :=
  named ⟨fun d pos x hx => absurd (h.kinds d pos x hx) (by simp)⟩

theorem fail {e : Error} {x : Err} (h : e.kind = x) : KindOf (fail e : ERd α) (Rd.fail x) := by
  intro d pos; subst h; rfl

theorem pure (a : α) : KindOf (pure a) (pure a) := fun _ _ => rfl

theorem bind {m : ERd α} {r : Rd α} {f : α → ERd β} {g : α → Rd β} (h : KindOf m r) (hf : ∀ a, KindOf (f a) (g a)) :
    KindOf (m >>= f) (r >>= g) := by
  intro d pos
  rw [ERd.bind_apply, Rd.bind_apply, ← h d pos]
  cases m d pos with
  | ok a => exact hf a.1 d a.2
  | err e => rfl
  | panic => rfl

theorem ite {c : Prop} [Decidable c] {m m' : ERd α} {r r' : Rd α} (h : KindOf m r) (h' : KindOf m' r') :
    KindOf (if c then m else m') (if c then r else r') := by split <;> assumption

theorem inContext {c : String} {m : ERd α} {r : Rd α} (h : KindOf m r) : KindOf (inContext c m) r := by
  intro d pos
  rw [← h d pos]
  unfold ERd.inContext
  cases m d pos <;> rfl

theorem replicateM {m : ERd α} {r : Rd α} (h : KindOf m r) (n : Nat) : KindOf (replicateM n m) (Rd.replicateM n r) := by
  induction n with
  | zero => exact pure []
  | succ n ih => exact h.bind fun a => ih.bind fun as => pure (a :: as)

theorem u32 (desc : String) : KindOf (reading desc Rd.readU32) Rd.readU32 := named (RdKinds.readU32 (List.mem_singleton.mpr rfl))
theorem u64 (desc : String) : KindOf (reading desc Rd.readU64) Rd.readU64 := named (RdKinds.readU64 (List.mem_singleton.mpr rfl))
theorem exact (desc : String) (n : Nat) : KindOf (reading desc (Rd.readExact n)) (Rd.readExact n) :=
  named (RdKinds.readExact (List.mem_singleton.mpr rfl) n)
theorem floats (desc : String) (n : Nat) : KindOf (reading desc (Rd.readF32s n)) (Rd.readF32s n) :=
  named (RdKinds.readF32s (List.mem_singleton.mpr rfl) n)
theorem alloc (s n : Nat) : KindOf (ERd.quiet (Rd.alloc s n)) (Rd.alloc s n) := quiet (RdKinds.alloc s n)
theorem allocArray (s : Nat) (l : List Nat) : KindOf (ERd.quiet (FF.allocArray s l)) (FF.allocArray s l) :=
  quiet (RdKinds.allocArray s l)
theorem position : KindOf (ERd.quiet Rd.position) Rd.position := quiet RdKinds.position
theorem skip (n : Nat) : KindOf (ERd.quiet (Rd.skip n)) (Rd.skip n) := quiet (RdKinds.skip n)
theorem lift {r : Res α} (h : Res.NoErr r) : KindOf (ERd.quiet (Rd.lift r)) (Rd.lift r) :=
  quiet (RdKinds.lift (Kinds.of_noErr h))
theorem option {e : Error} {x : Err} (h : e.kind = x) (o : Option α) :
    KindOf (ERd.named e (Rd.lift (Res.ofOption x o))) (Rd.lift (Res.ofOption x o)) :=
  named (RdKinds.lift (Kinds.option (by simp [h]) o))

theorem chunkId (desc : String) : KindOf (readChunkId desc) FF.readChunkId := by
  refine (u32 desc).bind fun c => ?_
  cases ChunkId.ofCode c with
  | none => exact fun _ _ => rfl
  | some i => exact fun _ _ => rfl

theorem ensureChunkType (i : ChunkId) : KindOf (ensureChunkType i) (FF.ensureChunkType i) :=
  (chunkId _).bind fun _ => ite (fail rfl) (pure ())

theorem ensureDataType (t : Nat) : KindOf (ensureDataType t) (FF.ensureDataType t) :=
  (u32 _).bind fun _ => ite (fail rfl) (pure ())

theorem peek (desc : String) : KindOf (peekChunkId desc) FF.peekChunkId := by
  intro d pos
  unfold peekChunkId FF.peekChunkId
  rw [← chunkId desc d pos]
  cases readChunkId desc d pos <;> rfl

end KindOf

/-! ## The pieces of a chunk -/

end ERd

/-- A piece of the data: a field, with the error that says that it is not there; bytes that are skipped; or bytes of which
the error depends on how many of them are there: `es[i]` if there are `i`. -/
inductive Piece where
  | field (e : Error) (len : Nat)
  | skipped (len : Nat)
  | varied (es : List Error)
deriving DecidableEq, Repr

namespace Piece

/-- Number of bytes. -/
def len : Piece → Nat
  | field _ n => n
  | skipped n => n
  | varied es => es.length

/-- Number of bytes of all pieces. -/
def total (ps : List Piece) : Nat := (ps.map len).sum

/-- The field that is missing or incomplete if there are only `n` bytes: the first one that does not end within them.
Skipped bytes and fields without bytes need not be there. -/
def missing : List Piece → Nat → Option Error
  | [], _ => none
  | field e k :: ps, n => if n < k then some e else missing ps (n - k)
  | skipped k :: ps, n => missing ps (n - k)
  | varied es :: ps, n => es[n]?.or (missing ps (n - es.length))

theorem total_append (ps qs : List Piece) : total (ps ++ qs) = total ps + total qs := by simp [total]

theorem missing_append (ps qs : List Piece) (n : Nat) :
    missing (ps ++ qs) n = (missing ps n).or (missing qs (n - total ps)) := by
  induction ps generalizing n with
  | nil => simp [missing, total]
  | cons p ps ih =>
    cases p with
    | field e k =>
      simp only [List.cons_append, missing]
      split
      · rfl
      · rw [ih, Nat.sub_sub]; simp [total, len]
    | skipped k =>
      simp only [List.cons_append, missing]
      rw [ih, Nat.sub_sub]; simp [total, len]
    | varied es =>
      simp only [List.cons_append, missing]
      rw [ih, Nat.sub_sub, Option.or_assoc]; simp [total, len]

end Piece

open Piece

/-- What a reader does with the first part of data that it accepts as a whole: it fails with the error of the first
piece that is not complete, and if there is none, it returns the same as before. -/
def ERd.Cut {α : Type} (m : ERd α) (d : Bytes) (pos : Nat) (r : α × Nat) (ps : List Piece) : Prop :=
  r.2 = pos + total ps ∧
  ∀ c, m (d.take c) pos = match missing ps (c - pos) with
    | some e => .err e
    | none => .ok r

/-- The data that `m` accepts consists of pieces as given by `L`. -/
def ERd.Tells {α : Type} (m : ERd α) (L : Nat → α → List Piece → Prop) : Prop :=
  ∀ d pos r, m d pos = .ok r → ∃ ps, L pos r.1 ps ∧ m.Cut d pos r ps

namespace ERd.Tells
variable {α β : Type}

theorem imp {m : ERd α} {L M : Nat → α → List Piece → Prop} (h : m.Tells L) (hi : ∀ pos a ps, L pos a ps → M pos a ps) :
    m.Tells M := fun d pos r hr => by
  obtain ⟨ps, h1, h2⟩ := h d pos r hr
  exact ⟨ps, hi _ _ _ h1, h2⟩

theorem pure (x : α) : (Pure.pure x : ERd α).Tells fun _ a ps => a = x ∧ ps = [] := by
  intro d pos r hr
  cases hr
  exact ⟨[], ⟨rfl, rfl⟩, rfl, fun c => rfl⟩

theorem fail (e : Error) : (fail e : ERd α).Tells fun _ _ _ => False := by
  intro d pos r hr; cases hr

/-- A step that does not look at the data. -/
theorem still {r : Res α} {e : Error} : (named e (Rd.lift r)).Tells fun _ a ps => r = .ok a ∧ ps = [] := by
  intro d pos b hb
  cases r with
  | ok a => cases hb; exact ⟨[], ⟨rfl, rfl⟩, rfl, fun c => rfl⟩
  | err x => cases hb
  | panic => cases hb

theorem position : (quiet Rd.position).Tells fun pos a ps => a = pos ∧ ps = [] := by
  intro d pos b hb
  cases hb
  exact ⟨[], ⟨rfl, rfl⟩, rfl, fun c => rfl⟩

theorem skip (n : Nat) : (quiet (Rd.skip n)).Tells fun _ _ ps => ps = [.skipped n] := by
  intro d pos b hb
  cases hb
  exact ⟨_, rfl, by simp [total, len], fun c => rfl⟩

theorem exact (desc : String) (n : Nat) :
    (reading desc (Rd.readExact n)).Tells fun _ a ps => a.length = n ∧ ps = [.field (.read desc) n] := by
  intro d pos b hb
  have hb' : Rd.readExact n d pos = .ok b := by
    unfold reading named at hb
    cases h : Rd.readExact n d pos with
    | ok r => rw [h] at hb; cases hb; rfl
    | err x => rw [h] at hb; cases hb
    | panic => rw [h] at hb; cases hb
  unfold Rd.readExact at hb'
  split at hb'
  · rename_i h0
    subst h0
    cases hb'
    exact ⟨_, ⟨rfl, rfl⟩, rfl, fun c => by simp [missing, reading, named, Rd.readExact]⟩
  · rename_i h0
    split at hb'
    · rename_i hl
      cases hb'
      refine ⟨_, ⟨by simp; omega, rfl⟩, by simp [total, len], fun c => ?_⟩
      simp only [missing, reading, named, Rd.readExact, if_neg h0, List.length_take]
      by_cases hc : c - pos < n
      · rw [if_pos hc, if_neg (by omega)]
      · rw [if_neg hc, if_pos (by omega)]
        simp only [ERes.ok.injEq, Prod.mk.injEq, and_true]
        rw [List.drop_take, List.take_take, Nat.min_eq_left (by omega)]
    · cases hb'

theorem bind {m : ERd α} {f : α → ERd β} {L : Nat → α → List Piece → Prop} {M : α → Nat → β → List Piece → Prop}
    (h : m.Tells L) (hf : ∀ a, (f a).Tells (M a)) :
    (m >>= f).Tells fun pos b ps => ∃ a p1 p2, ps = p1 ++ p2 ∧ L pos a p1 ∧ M a (pos + total p1) b p2 := by
  intro d pos r hr
  rw [bind_apply] at hr
  cases hm : m d pos with
  | err e => rw [hm] at hr; cases hr
  | panic => rw [hm] at hr; cases hr
  | ok a =>
    rw [hm] at hr
    replace hr : f a.1 d a.2 = .ok r := hr
    obtain ⟨p1, hL, h1, h2⟩ := h d pos a hm
    obtain ⟨p2, hM, h3, h4⟩ := hf a.1 d a.2 r hr
    refine ⟨p1 ++ p2, ⟨a.1, p1, p2, rfl, hL, h1 ▸ hM⟩, by rw [total_append]; omega, fun c => ?_⟩
    rw [bind_apply, h2 c, missing_append]
    cases missing p1 (c - pos) with
    | some e => rfl
    | none =>
      show f a.1 (d.take c) a.2 = _
      rw [h4 c, h1, Nat.sub_sub]
      rfl

/-- After a step that does not look at the data. -/
theorem bind0 {m : ERd α} {f : α → ERd β} {c : Nat → α → Prop} {M : α → Nat → β → List Piece → Prop}
    (h : m.Tells fun pos a ps => c pos a ∧ ps = []) (hf : ∀ a, (f a).Tells (M a)) :
    (m >>= f).Tells fun pos b ps => ∃ a, c pos a ∧ M a pos b ps :=
  (h.bind hf).imp fun pos b ps ⟨a, p1, p2, e, ⟨hc, h1⟩, hM⟩ => by
    subst h1
    exact ⟨a, hc, by rw [e]; exact hM⟩

theorem ite {c : Prop} [Decidable c] {m m' : ERd α} {L M : Nat → α → List Piece → Prop} (h : m.Tells L) (h' : m'.Tells M) :
    (if c then m else m').Tells fun pos a ps => if c then L pos a ps else M pos a ps := by
  by_cases hc : c
  · simp only [if_pos hc]; exact h
  · simp only [if_neg hc]; exact h'

/-- `if bad then fail else go on`. -/
theorem guard {c : Prop} [Decidable c] {e : Error} {m : ERd α} {L : Nat → α → List Piece → Prop} (h : m.Tells L) :
    (if c then ERd.fail e else m).Tells fun pos a ps => ¬ c ∧ L pos a ps :=
  ((fail e).ite h).imp fun pos a ps hx => by
    by_cases hc : c
    · simp [hc] at hx
    · simp only [if_neg hc] at hx; exact ⟨hc, hx⟩

theorem u32 (desc : String) : (reading desc Rd.readU32).Tells fun _ a ps => a < 2 ^ 32 ∧ ps = [.field (.read desc) 4] := by
  have : reading desc Rd.readU32 = (reading desc (Rd.readExact 4) >>= fun b => Pure.pure (leVal b)) := by
    funext d pos
    show named _ _ d pos = (named _ _ d pos).bind _
    unfold named Rd.readU32
    rw [Rd.bind_apply]
    cases Rd.readExact 4 d pos <;> rfl
  rw [this]
  refine ((exact desc 4).bind fun b => pure (leVal b)).imp ?_
  rintro pos a ps ⟨b, _, _, rfl, ⟨hb, rfl⟩, rfl, rfl⟩
  have := leVal_lt b
  rw [hb] at this
  exact ⟨this, rfl⟩

theorem u64 (desc : String) : (reading desc Rd.readU64).Tells fun _ a ps => a < 2 ^ 64 ∧ ps = [.field (.read desc) 8] := by
  have : reading desc Rd.readU64 = (reading desc (Rd.readExact 8) >>= fun b => Pure.pure (leVal b)) := by
    funext d pos
    show named _ _ d pos = (named _ _ d pos).bind _
    unfold named Rd.readU64
    rw [Rd.bind_apply]
    cases Rd.readExact 8 d pos <;> rfl
  rw [this]
  refine ((exact desc 8).bind fun b => pure (leVal b)).imp ?_
  rintro pos a ps ⟨b, _, _, rfl, ⟨hb, rfl⟩, rfl, rfl⟩
  have := leVal_lt b
  rw [hb] at this
  exact ⟨this, rfl⟩

theorem floats (desc : String) (n : Nat) :
    (reading desc (Rd.readF32s n)).Tells fun _ a ps => a.length = n ∧ ps = [.field (.read desc) (4 * n)] := by
  have : reading desc (Rd.readF32s n) = (reading desc (Rd.readExact (4 * n)) >>= fun b => Pure.pure (Rd.decodeF32s n b)) := by
    funext d pos
    show named _ _ d pos = (named _ _ d pos).bind _
    unfold named Rd.readF32s
    rw [Rd.bind_apply]
    cases Rd.readExact (4 * n) d pos <;> rfl
  rw [this]
  refine ((exact desc (4 * n)).bind fun b => pure (Rd.decodeF32s n b)).imp ?_
  rintro pos a ps ⟨b, _, _, rfl, ⟨hb, rfl⟩, rfl, rfl⟩
  exact ⟨Rd.decodeF32s_length _ _, rfl⟩

/-- Context for every error. -/
theorem inContext {m : ERd α} {L : Nat → α → List Piece → Prop} (c : String) (h : m.Tells L) :
    (inContext c m).Tells fun pos a ps => ∃ qs, L pos a qs ∧ ps = qs.map fun
      | .field e n => .field (.context c e) n
      | .skipped n => .skipped n
      | .varied es => .varied (es.map (.context c)) := by
  intro d pos r hr
  have hr' : m d pos = .ok r := by
    unfold ERd.inContext at hr
    cases h : m d pos with
    | ok r => rw [h] at hr; cases hr; rfl
    | err x => rw [h] at hr; cases hr
    | panic => rw [h] at hr; cases hr
  obtain ⟨ps, h1, h2, h3⟩ := h d pos r hr'
  have ht : ∀ ps : List Piece, total (ps.map fun
      | .field e n => .field (.context c e) n
      | .skipped n => .skipped n
      | .varied es => .varied (es.map (.context c))) = total ps := by
    intro ps
    induction ps with
    | nil => rfl
    | cons p ps ih => cases p <;> simp [total, len] at ih ⊢ <;> exact ih
  have hm : ∀ (ps : List Piece) (n : Nat), missing (ps.map fun
      | .field e n => .field (.context c e) n
      | .skipped n => .skipped n
      | .varied es => .varied (es.map (.context c))) n = (missing ps n).map (.context c) := by
    intro ps
    induction ps with
    | nil => intro n; rfl
    | cons p ps ih =>
      intro n
      cases p with
      | field e k => simp only [List.map_cons, missing, ih]; split <;> rfl
      | skipped k => simp only [List.map_cons, missing, ih]
      | varied es =>
        simp only [List.map_cons, missing, ih, List.length_map, List.getElem?_map]
        cases es[n]? <;> rfl
  refine ⟨_, ⟨ps, h1, rfl⟩, by rw [ht]; exact h2, fun k => ?_⟩
  rw [hm]
  unfold ERd.inContext
  rw [h3 k]
  cases missing ps (k - pos) <;> rfl

theorem replicateM {m : ERd α} {c : α → Prop} {enc : α → List Piece} (h : m.Tells fun _ a ps => c a ∧ ps = enc a) (n : Nat) :
    (replicateM n m).Tells fun _ as ps => as.length = n ∧ ps = as.flatMap enc := by
  induction n with
  | zero => exact (pure []).imp fun _ _ _ ⟨h1, h2⟩ => by subst h1; exact ⟨rfl, h2⟩
  | succ n ih =>
    refine (h.bind fun a => ih.bind fun as => pure (a :: as)).imp ?_
    rintro pos as ps ⟨a, _, _, rfl, ⟨_, rfl⟩, as, _, _, rfl, ⟨rfl, rfl⟩, rfl, rfl⟩
    exact ⟨rfl, by simp⟩

theorem chunkId (desc : String) : (readChunkId desc).Tells fun _ _ ps => ps = [.field (.read desc) 4] := by
  refine ((u32 desc).bind (M := fun _ _ _ ps => ps = []) fun c => ?_).imp ?_
  · cases ChunkId.ofCode c with
    | some i => exact (pure i).imp fun _ _ _ h => h.2
    | none => exact (fail _).imp fun _ _ _ h => h.elim
  · rintro pos a ps ⟨c, _, _, rfl, ⟨_, rfl⟩, rfl⟩
    rfl

theorem ensureChunkType (i : ChunkId) :
    (ensureChunkType i).Tells fun _ _ ps => ps = [.field (.read "Cannot read chunk identifier") 4] := by
  refine ((chunkId _).bind fun c => (pure ()).guard).imp ?_
  rintro pos a ps ⟨c, _, _, rfl, rfl, _, _, rfl⟩
  rfl

theorem ensureDataType (t : Nat) :
    (ensureDataType t).Tells fun _ _ ps => ps = [.field (.read "Cannot read type identifier") 4] := by
  refine ((u32 _).bind fun c => (pure ()).guard).imp ?_
  rintro pos a ps ⟨c, _, _, rfl, ⟨_, rfl⟩, _, _, rfl⟩
  rfl

/-- Looking at the identifier before reading the chunk. -/
theorem peek {desc : String} {f : ChunkId → ERd β} {M : ChunkId → Nat → β → List Piece → Prop}
    (hf : ∀ i, (f i).Tells (M i)) (hM : ∀ i pos b ps, M i pos b ps → ∃ e qs, ps = .field e 4 :: qs) :
    (peekChunkId desc >>= f).Tells fun pos b ps => ∃ i e qs, M i pos b (.field e 4 :: qs) ∧
      ps = .field (.read desc) 4 :: qs := by
  intro d pos r hr
  rw [bind_apply] at hr
  unfold peekChunkId at hr
  cases hm : readChunkId desc d pos with
  | err e => rw [hm] at hr; cases hr
  | panic => rw [hm] at hr; cases hr
  | ok a =>
    rw [hm] at hr
    replace hr : f a.1 d pos = .ok r := hr
    obtain ⟨_, rfl, h1, h2⟩ := chunkId desc d pos a hm
    obtain ⟨ps, hL, h3, h4⟩ := hf a.1 d pos r hr
    obtain ⟨e, qs, rfl⟩ := hM _ _ _ _ hL
    refine ⟨_, ⟨a.1, e, qs, hL, rfl⟩, h3, fun c => ?_⟩
    rw [bind_apply]
    unfold peekChunkId
    rw [h2 c]
    simp only [missing]
    by_cases hc : c - pos < 4
    · simp only [if_pos hc]; rfl
    · simp only [if_neg hc]
      show f a.1 (d.take c) pos = _
      rw [h4 c]
      simp only [missing, if_neg hc]

end ERd.Tells

end FF
