import Verif.Model.Basic

/-!
# Readers and writers

`Rd` models `Read + Seek` over a fixed byte string with a position (std's `Cursor`/`BufReader<File>`
as used by `ReadChunk::read_chunk`, src/chunks/io.rs:150-158). `W` models what a `write_chunk`
(src/chunks/io.rs:161-175) hands to the underlying writer.
-/

namespace FF

/-- A reading computation: data, start position ↦ outcome and end position. The position after an error is not
modelled: no caller in the crate continues reading after an error. E.g. src/chunks/io.rs:150-158. -/
def Rd (α : Type) := Bytes → Nat → Res (α × Nat)

namespace Rd

/-- Reading one thing after another, with `?` after each, e.g. src/chunks/metadata.rs:55-72. -/
instance : Monad Rd where
  pure a := fun _ pos => .ok (a, pos)
  bind p f := fun d pos => (p d pos).bind fun r => f r.1 d r.2

/-- Lift a stream-independent outcome (an error return or a panic). E.g. src/chunks/io.rs:259. -/
def lift {α : Type} (r : Res α) : Rd α := fun _ pos => r.map (·, pos)

/-- Return an error. E.g. src/chunks/io.rs:233. -/
def fail {α : Type} (e : Err) : Rd α := fun _ _ => .err e

/-- `Read::read_exact` on a buffer of `n` bytes. Reading zero bytes always succeeds, also beyond the end of the
data. Users: src/chunks/io.rs:229, src/chunks/vocab/mod.rs:86, src/chunks/metadata.rs:64. -/
def readExact (n : Nat) : Rd Bytes := fun d pos =>
  if n = 0 then .ok ([], pos)
  else if pos + n ≤ d.length then .ok ((d.drop pos).take n, pos + n)
  else .err .io

/-- `read_u32::<LittleEndian>`. Users: e.g. src/chunks/io.rs:240, src/chunks/vocab/mod.rs:83. -/
def readU32 : Rd Nat := do return leVal (← readExact 4)
/-- `read_u64::<LittleEndian>`. User: e.g. src/chunks/metadata.rs:58. -/
def readU64 : Rd Nat := do return leVal (← readExact 8)
/-- `Seek::stream_position`. Users: e.g. src/chunks/norms.rs:73, src/chunks/storage/array.rs:347. -/
def position : Rd Nat := fun _ pos => .ok (pos, pos)
/-- `seek(SeekFrom::Current(n))` with `n ≥ 0`; seeking past the end is not an error. Users: e.g.
src/chunks/norms.rs:76, src/chunks/storage/array.rs:350. -/
def skip (n : Nat) : Rd Unit := fun _ pos => .ok ((), pos + n)

/-- Decode `n` consecutive `f32`s. Part of `read_f32_into`, e.g. src/chunks/norms.rs:80. -/
def decodeF32s : Nat → Bytes → List F32
  | 0, _ => []
  | n + 1, bs => f32Val (bs.take 4) :: decodeF32s n (bs.drop 4)

/-- `read_f32_into::<LittleEndian>` on a slice of `n` floats. Users: src/chunks/norms.rs:80,
src/chunks/storage/array.rs:354, src/chunks/storage/quantized.rs:127, :141, :341. -/
def readF32s (n : Nat) : Rd (List F32) := do return decodeF32s n (← readExact (4 * n))

/-- Heap allocation for `n` elements of `size` bytes: panics on capacity overflow (`Vec::with_capacity`,
`vec![0; n]`). Users: src/chunks/vocab/mod.rs:85, :97, src/chunks/io.rs:254, src/chunks/metadata.rs:63. -/
def alloc (size n : Nat) : Rd Unit := lift (Res.assert (decide (size * n ≤ isizeMax)))

/-- Run `p` `n` times, collecting the results (a `for _ in 0..n` loop with a push). Users:
src/chunks/vocab/mod.rs:98-101, src/chunks/io.rs:255-261. -/
def replicateM {α : Type} : Nat → Rd α → Rd (List α)
  | 0, _ => pure []
  | n + 1, p => do
    let a ← p
    let as ← replicateM n p
    return a :: as

@[simp] theorem bind_apply {α β : Type} (p : Rd α) (f : α → Rd β) (d : Bytes) (pos : Nat) :
    (p >>= f) d pos = (p d pos >>= fun r => f r.1 d r.2) := rfl
@[simp] theorem pure_apply {α : Type} (a : α) (d : Bytes) (pos : Nat) :
    (pure a : Rd α) d pos = .ok (a, pos) := rfl
@[simp] theorem lift_ok_apply {α : Type} (a : α) (d : Bytes) (pos : Nat) :
    (lift (.ok a) : Rd α) d pos = .ok (a, pos) := rfl
@[simp] theorem lift_err_apply {α : Type} (e) (d : Bytes) (pos : Nat) :
    (lift (.err e) : Rd α) d pos = .err e := rfl
@[simp] theorem lift_panic_apply {α : Type} (d : Bytes) (pos : Nat) :
    (lift .panic : Rd α) d pos = .panic := rfl
@[simp] theorem fail_apply {α : Type} (e) (d : Bytes) (pos : Nat) :
    (fail e : Rd α) d pos = .err e := rfl
@[simp] theorem position_apply (d : Bytes) (pos : Nat) : position d pos = .ok (pos, pos) := rfl
@[simp] theorem skip_apply (n) (d : Bytes) (pos : Nat) : skip n d pos = .ok ((), pos + n) := rfl

/-- The usual laws of sequencing (no counterpart in the source; used for e.g. src/chunks/metadata.rs:55-72). -/
instance : LawfulMonad Rd := LawfulMonad.mk'
  (id_map := by
    intro α x; funext d pos
    show ((x d pos).bind fun r => Res.ok (id r.1, r.2)) = x d pos
    cases x d pos <;> rfl)
  (pure_bind := by intros; rfl)
  (bind_assoc := by
    intro α β γ x f g; funext d pos
    show ((x d pos).bind _).bind _ = (x d pos).bind _
    cases x d pos <;> rfl)

/-! ## Compositional reading predicate -/

/-- Started at position `off` on data that has exactly `bs` at that position, whatever comes before and after,
the reader returns `a` and stops right after `bs`. For readers such as src/chunks/io.rs:150-158. -/
def ReadsAt {α : Type} (p : Rd α) (off : Nat) (bs : Bytes) (a : α) : Prop :=
  ∀ pre post : Bytes, pre.length = off → p (pre ++ (bs ++ post)) off = .ok (a, off + bs.length)

theorem ReadsAt.pure {α : Type} (off : Nat) (a : α) : ReadsAt (pure a) off [] a := by
  intro pre post h; simp

theorem ReadsAt.bind {α β : Type} {p : Rd α} {f : α → Rd β} {off : Nat} {b₁ b₂ : Bytes} {a : α} {b : β}
    (h₁ : ReadsAt p off b₁ a) (h₂ : ReadsAt (f a) (off + b₁.length) b₂ b) :
    ReadsAt (p >>= f) off (b₁ ++ b₂) b := by
  intro pre post h
  have e₁ := h₁ pre (b₂ ++ post) h
  have e₂ := h₂ (pre ++ b₁) post (by simp [h])
  simp only [bind_apply, List.append_assoc] at *
  rw [e₁]; simp only [Res.ok_bind]
  rw [e₂]; simp [Nat.add_assoc]

/-- A step that consumes nothing. -/
theorem ReadsAt.bind0 {α β : Type} {p : Rd α} {f : α → Rd β} {off : Nat} {bs : Bytes} {a : α} {b : β}
    (h₁ : ReadsAt p off [] a) (h₂ : ReadsAt (f a) off bs b) : ReadsAt (p >>= f) off bs b := by
  have := ReadsAt.bind (b₂ := bs) h₁ (by simpa using h₂)
  simpa using this

theorem ReadsAt.map {α β : Type} {p : Rd α} {off : Nat} {bs : Bytes} {a : α} (f : α → β)
    (h : ReadsAt p off bs a) : ReadsAt (p >>= fun x => Pure.pure (f x)) off bs (f a) := by
  have := ReadsAt.bind h (f := fun x => Pure.pure (f x)) (ReadsAt.pure _ (f a))
  simpa using this

theorem ReadsAt.position (off : Nat) : ReadsAt position off [] off := by
  intro pre post h; simp

theorem ReadsAt.lift_ok {α : Type} (off : Nat) (a : α) : ReadsAt (lift (.ok a)) off [] a := by
  intro pre post h; simp

theorem ReadsAt.alloc {off size n : Nat} (h : size * n ≤ isizeMax) :
    ReadsAt (alloc size n) off [] () := by
  intro pre post _; simp [Rd.alloc, h]

theorem ReadsAt.skip (off : Nat) (bs : Bytes) : ReadsAt (skip bs.length) off bs () := by
  intro pre post h; simp

theorem ReadsAt.readExact (off : Nat) (bs : Bytes) : ReadsAt (readExact bs.length) off bs bs := by
  intro pre post h
  unfold Rd.readExact
  by_cases h0 : bs.length = 0
  · have : bs = [] := List.length_eq_zero_iff.mp h0
    simp [this]
  · rw [if_neg h0, if_pos (by simp; omega)]
    subst h; simp

theorem ReadsAt.readU32 {off v : Nat} (h : v < 2 ^ 32) : ReadsAt readU32 off (leBytes 4 v) v := by
  have := ReadsAt.readExact off (leBytes 4 v)
  rw [leBytes_length] at this
  have := ReadsAt.map leVal this
  rwa [leVal_leBytes_of_lt (by simpa using h)] at this

theorem ReadsAt.readU64 {off v : Nat} (h : v < 2 ^ 64) : ReadsAt readU64 off (leBytes 8 v) v := by
  have := ReadsAt.readExact off (leBytes 8 v)
  rw [leBytes_length] at this
  have := ReadsAt.map leVal this
  rwa [leVal_leBytes_of_lt (by simpa using h)] at this

/-- Little-endian encoding of a float slice. The loops of src/chunks/norms.rs:135-139,
src/chunks/storage/array.rs:263-269. -/
def encodeF32s (xs : List F32) : Bytes := xs.flatMap f32Bytes

@[simp] theorem encodeF32s_nil : encodeF32s [] = [] := rfl
@[simp] theorem encodeF32s_cons (x : F32) (xs) : encodeF32s (x :: xs) = f32Bytes x ++ encodeF32s xs := by
  simp [encodeF32s]
@[simp] theorem encodeF32s_append (xs ys) : encodeF32s (xs ++ ys) = encodeF32s xs ++ encodeF32s ys := by
  simp [encodeF32s]

@[simp] theorem encodeF32s_length (xs : List F32) : (encodeF32s xs).length = 4 * xs.length := by
  induction xs with
  | nil => rfl
  | cons x xs ih => simp [ih]; omega

@[simp] theorem decodeF32s_length (n : Nat) (bs : Bytes) : (decodeF32s n bs).length = n := by
  induction n generalizing bs with
  | zero => rfl
  | succ n ih => simp [decodeF32s, ih]

theorem decodeF32s_encodeF32s (xs : List F32) (rest : Bytes) :
    decodeF32s xs.length (encodeF32s xs ++ rest) = xs := by
  induction xs with
  | nil => rfl
  | cons x xs ih =>
    simp only [List.length_cons, decodeF32s, encodeF32s_cons]
    have h4 := f32Bytes_length x
    rw [List.append_assoc, List.take_left' h4, List.drop_left' h4, ih, f32Val_f32Bytes]

theorem ReadsAt.readF32s (off : Nat) (xs : List F32) :
    ReadsAt (readF32s xs.length) off (encodeF32s xs) xs := by
  have := ReadsAt.readExact off (encodeF32s xs)
  rw [encodeF32s_length] at this
  have := ReadsAt.map (decodeF32s xs.length) this
  rwa [show decodeF32s xs.length (encodeF32s xs) = xs by
    simpa using decodeF32s_encodeF32s xs []] at this

theorem ReadsAt.replicateM {α : Type} {p : Rd α} {enc : α → Bytes} (as : List α) (off : Nat)
    (h : ∀ off, ∀ a ∈ as, ReadsAt p off (enc a) a) :
    ReadsAt (replicateM as.length p) off (as.flatMap enc) as := by
  induction as generalizing off with
  | nil => exact ReadsAt.pure off []
  | cons a as ih =>
    simp only [List.length_cons, Rd.replicateM, List.flatMap_cons]
    refine ReadsAt.bind (h off a (by simp)) ?_
    exact ReadsAt.map (a :: ·) (ih _ fun off x hx => h off x (by simp [hx]))

/-! ## Monotonicity: appending data does not change an outcome that is not an I/O error -/

/-- An outcome other than an I/O error is unchanged when bytes are appended to the data. For readers such as
src/chunks/io.rs:150-158. -/
structure Mono {α : Type} (p : Rd α) : Prop where
  mono : ∀ d e pos, p d pos = .err .io ∨ p (d ++ e) pos = p d pos

theorem Mono.pure {α : Type} (a : α) : Mono (pure a : Rd α) := ⟨fun _ _ _ => .inr rfl⟩
theorem Mono.lift {α : Type} (r : Res α) : Mono (lift r) := ⟨fun _ _ _ => .inr rfl⟩
theorem Mono.fail {α : Type} (e) : Mono (fail e : Rd α) := ⟨fun _ _ _ => .inr rfl⟩
theorem Mono.alloc (s n) : Mono (alloc s n) := ⟨fun _ _ _ => .inr rfl⟩
theorem Mono.position : Mono position := ⟨fun _ _ _ => .inr rfl⟩
theorem Mono.skip (n) : Mono (skip n) := ⟨fun _ _ _ => .inr rfl⟩

theorem Mono.bind {α β : Type} {p : Rd α} {f : α → Rd β} (hp : Mono p) (hf : ∀ a, Mono (f a)) :
    Mono (p >>= f) := by
  constructor
  intro d e pos
  simp only [bind_apply]
  rcases hp.mono d e pos with h | h
  · left; rw [h]; rfl
  · rw [h]
    cases h' : p d pos with
    | ok r => simpa using (hf r.1).mono d e r.2
    | err x => right; rfl
    | panic => right; rfl

theorem Mono.readExact (n) : Mono (readExact n) := by
  constructor
  intro d e pos
  unfold Rd.readExact
  by_cases h0 : n = 0
  · simp [h0]
  · by_cases h : pos + n ≤ d.length
    · right
      rw [if_neg h0, if_neg h0, if_pos h, if_pos (by simp; omega)]
      have : (d ++ e).drop pos = d.drop pos ++ e := List.drop_append_of_le_length (by omega)
      rw [this, List.take_append_of_le_length (by simp; omega)]
    · left; simp [h0, h]

theorem Mono.readU32 : Mono readU32 := (Mono.readExact 4).bind fun _ => Mono.pure _
theorem Mono.readU64 : Mono readU64 := (Mono.readExact 8).bind fun _ => Mono.pure _
theorem Mono.readF32s (n) : Mono (readF32s n) := (Mono.readExact _).bind fun _ => Mono.pure _

theorem Mono.replicateM {α : Type} {p : Rd α} (hp : Mono p) (n : Nat) : Mono (replicateM n p) := by
  induction n with
  | zero => exact Mono.pure _
  | succ n ih => exact hp.bind fun _ => ih.bind fun _ => Mono.pure _

/-- Decomposes a monotonicity goal along the structure of a reader. -/
macro "mono_tac" : tactic => `(tactic|
  repeat' (first
    | exact Mono.pure _ | exact Mono.lift _ | exact Mono.fail _ | exact Mono.alloc _ _
    | exact Mono.position | exact Mono.skip _ | exact Mono.readExact _ | exact Mono.readU32
    | exact Mono.readU64 | exact Mono.readF32s _ | apply Mono.replicateM | assumption
    | (apply Mono.bind) | split | (intro _)))

end Rd

/-! ## Writers -/

/-- What a writing function does: the blocks it passes to `write_all` in order, and how it ends (a function may
fail on its own after having written something). See src/chunks/io.rs:161-175. -/
structure W where
  blocks : List Bytes
  status : Res Unit
deriving DecidableEq, Repr

namespace W

/-- All bytes written when the underlying writer never fails. For writers such as src/chunks/io.rs:161-175. -/
def bytes (w : W) : Bytes := w.blocks.flatten

/-- Number of bytes written. For writers such as src/chunks/io.rs:161-175. -/
def size (w : W) : Nat := w.bytes.length

/-- Nothing to write. E.g. the final `Ok(())`, src/chunks/metadata.rs:105. -/
def nil : W := ⟨[], .ok ()⟩

/-- One `write_all`. E.g. src/chunks/vocab/mod.rs:113. -/
def emit (b : Bytes) : W := ⟨[b], .ok ()⟩

/-- Return with an outcome of its own. E.g. the `Error::Overflow` of src/compat/fasttext/io.rs:564. -/
def done (r : Res Unit) : W := ⟨[], r⟩

/-- Sequencing: the second part runs only if the first succeeded. The `?` after each call, e.g.
src/chunks/metadata.rs:95-103. -/
def seq (a b : W) : W :=
  match a.status with
  | .ok () => ⟨a.blocks ++ b.blocks, b.status⟩
  | _ => a

/-- `++` for sequencing, e.g. src/chunks/metadata.rs:95-103. -/
instance : Append W := ⟨seq⟩

/-- `write_u32::<LittleEndian>(v as u32)`. User: e.g. src/chunks/vocab/mod.rs:110. -/
def u32 (v : Nat) : W := emit (leBytes 4 v)
/-- `write_u64::<LittleEndian>(v as u64)`. User: e.g. src/chunks/metadata.rs:99. -/
def u64 (v : Nat) : W := emit (leBytes 8 v)
/-- `write_f32::<LittleEndian>(x)`. User: e.g. src/chunks/norms.rs:137. -/
def f32 (x : F32) : W := emit (f32Bytes x)
/-- A loop of writes. E.g. src/chunks/vocab/mod.rs:121-123. -/
def each {α : Type} (f : α → W) : List α → W
  | [] => nil
  | a :: as => f a ++ each f as

/-- Hand the blocks to a sink that accepts `cap` more bytes and then fails (possibly in the middle of a block,
as `write_all` does): accepted bytes, and whether all blocks went through. `write_all` of a failing writer, e.g.
src/chunks/vocab/mod.rs:112-114. -/
def feed : Nat → List Bytes → Bytes × Bool
  | _, [] => ([], true)
  | cap, b :: bs =>
    if b.length ≤ cap then (b ++ (feed (cap - b.length) bs).1, (feed (cap - b.length) bs).2)
    else (b.take cap, false)

/-- Run against a sink that fails after `cap` bytes: accepted bytes and the outcome the caller sees (the `?`
after each `write_all`, mapped to `Error::write_error`). E.g. src/chunks/vocab/mod.rs:112-114. -/
def run (w : W) (cap : Nat) : Bytes × Res Unit :=
  ((feed cap w.blocks).1, if (feed cap w.blocks).2 then w.status else .err .io)

theorem seq_def (a b : W) : a ++ b = seq a b := rfl

/-- The writer ends successfully. For writers such as src/chunks/io.rs:161-175. -/
def Good (w : W) : Prop := w.status = .ok ()

@[simp] theorem good_emit (b) : Good (emit b) := rfl
@[simp] theorem good_nil : Good nil := rfl

@[simp] theorem good_seq_iff {a b : W} : Good (a ++ b) ↔ Good a ∧ Good b := by
  obtain ⟨ab, as⟩ := a
  cases as <;> simp [Good, seq_def, seq]

theorem good_seq {a b : W} (ha : Good a) (hb : Good b) : Good (a ++ b) := good_seq_iff.mpr ⟨ha, hb⟩

theorem bytes_seq {a b : W} (ha : Good a) : (a ++ b).bytes = a.bytes ++ b.bytes := by
  unfold Good at *; simp [seq_def, seq, ha, bytes]

@[simp] theorem bytes_emit (b) : (emit b).bytes = b := by simp [emit, bytes]
@[simp] theorem bytes_nil : nil.bytes = [] := rfl
@[simp] theorem bytes_u32 (v) : (u32 v).bytes = leBytes 4 v := by simp [u32]
@[simp] theorem bytes_u64 (v) : (u64 v).bytes = leBytes 8 v := by simp [u64]
@[simp] theorem bytes_f32 (v) : (f32 v).bytes = f32Bytes v := by simp [f32]
@[simp] theorem good_u32 (v) : Good (u32 v) := rfl
@[simp] theorem good_u64 (v) : Good (u64 v) := rfl
@[simp] theorem good_f32 (v) : Good (f32 v) := rfl

theorem good_each {α : Type} {f : α → W} {l : List α} (h : ∀ a ∈ l, Good (f a)) : Good (each f l) := by
  induction l with
  | nil => rfl
  | cons a l ih => exact good_seq (h a (by simp)) (ih fun x hx => h x (by simp [hx]))

theorem bytes_each {α : Type} {f : α → W} {l : List α} (h : ∀ a ∈ l, Good (f a)) :
    (each f l).bytes = l.flatMap fun a => (f a).bytes := by
  induction l with
  | nil => rfl
  | cons a l ih =>
    simp only [each, List.flatMap_cons]
    rw [bytes_seq (h a (by simp)), ih fun x hx => h x (by simp [hx])]

/-- What a failing sink has accepted is always the prefix of the complete output, and the writer
reports success of the I/O exactly when everything fitted. -/
theorem feed_eq (cap : Nat) (bs : List Bytes) :
    feed cap bs = (bs.flatten.take cap, decide (bs.flatten.length ≤ cap)) := by
  induction bs generalizing cap with
  | nil => simp [feed]
  | cons b bs ih =>
    simp only [feed, ih]
    by_cases h : b.length ≤ cap
    · rw [if_pos h]
      simp only [List.flatten_cons, List.length_append, List.take_append]
      rw [List.take_of_length_le h]
      congr 1
      apply decide_eq_decide.mpr; omega
    · rw [if_neg h]
      simp only [List.flatten_cons, List.length_append]
      rw [List.take_append_of_le_length (by omega)]
      congr 1
      symm; apply decide_eq_false; omega

theorem run_eq (w : W) (cap : Nat) :
    w.run cap = (w.bytes.take cap, if w.bytes.length ≤ cap then w.status else .err .io) := by
  simp [run, feed_eq, bytes]

end W

end FF
