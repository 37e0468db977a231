import Verif.Lemmas.Io

/-!
# What is at a position of a byte string

Small specification vocabulary (`u32At`, `u64At`, `sliceAt`), independent of the reader model, and the
lemmas that connect the readers to it.
-/

namespace FF

open Rd

/-- The `n` bytes at position `pos`, if they are all present. -/
def sliceAt (d : Bytes) (pos n : Nat) : Option Bytes :=
  if pos + n ≤ d.length then some ((d.drop pos).take n) else none

/-- The little-endian 32-bit number at a position. -/
def u32At (d : Bytes) (pos : Nat) : Option Nat := (sliceAt d pos 4).map leVal

/-- The little-endian 64-bit number at a position. -/
def u64At (d : Bytes) (pos : Nat) : Option Nat := (sliceAt d pos 8).map leVal

theorem readExact_eq {n : Nat} (h : n ≠ 0) (d : Bytes) (pos : Nat) :
    readExact n d pos = (Res.ofOption .io (sliceAt d pos n)).map (·, pos + n) := by
  unfold readExact sliceAt
  rw [if_neg h]
  split <;> simp [Res.ofOption]

theorem readU32_eq (d : Bytes) (pos : Nat) :
    readU32 d pos = (Res.ofOption .io (u32At d pos)).map (·, pos + 4) := by
  unfold readU32 u32At
  rw [bind_apply, readExact_eq (by decide)]
  cases sliceAt d pos 4 <;> rfl

theorem readU64_eq (d : Bytes) (pos : Nat) :
    readU64 d pos = (Res.ofOption .io (u64At d pos)).map (·, pos + 8) := by
  unfold readU64 u64At
  rw [bind_apply, readExact_eq (by decide)]
  cases sliceAt d pos 8 <;> rfl

@[simp] theorem readU32_some {d : Bytes} {pos v : Nat} (h : u32At d pos = some v) :
    readU32 d pos = .ok (v, pos + 4) := by rw [readU32_eq, h]; rfl
@[simp] theorem readU32_none {d : Bytes} {pos : Nat} (h : u32At d pos = none) :
    readU32 d pos = .err .io := by rw [readU32_eq, h]; rfl
@[simp] theorem readU64_some {d : Bytes} {pos v : Nat} (h : u64At d pos = some v) :
    readU64 d pos = .ok (v, pos + 8) := by rw [readU64_eq, h]; rfl
@[simp] theorem readU64_none {d : Bytes} {pos : Nat} (h : u64At d pos = none) :
    readU64 d pos = .err .io := by rw [readU64_eq, h]; rfl

theorem readU32_ok {d : Bytes} {pos v p : Nat} (h : readU32 d pos = .ok (v, p)) :
    u32At d pos = some v ∧ p = pos + 4 := by
  rw [readU32_eq] at h
  cases hu : u32At d pos with
  | none => simp [hu, Res.ofOption] at h
  | some w => simp [hu] at h; simp [h.1, h.2]

theorem readU64_ok {d : Bytes} {pos v p : Nat} (h : readU64 d pos = .ok (v, p)) :
    u64At d pos = some v ∧ p = pos + 8 := by
  rw [readU64_eq] at h
  cases hu : u64At d pos with
  | none => simp [hu, Res.ofOption] at h
  | some w => simp [hu] at h; simp [h.1, h.2]

theorem u32At_lt {d : Bytes} {pos v : Nat} (h : u32At d pos = some v) : v < 2 ^ 32 := by
  unfold u32At sliceAt at h
  split at h
  · rename_i hl
    simp only [Option.map_some, Option.some.injEq] at h
    rw [← h]
    have := leVal_lt ((d.drop pos).take 4)
    have hlen : ((d.drop pos).take 4).length = 4 := by simp; omega
    rw [hlen] at this
    simpa using this
  · simp at h

theorem u64At_lt {d : Bytes} {pos v : Nat} (h : u64At d pos = some v) : v < 2 ^ 64 := by
  unfold u64At sliceAt at h
  split at h
  · rename_i hl
    simp only [Option.map_some, Option.some.injEq] at h
    rw [← h]
    have := leVal_lt ((d.drop pos).take 8)
    have hlen : ((d.drop pos).take 8).length = 8 := by simp; omega
    rw [hlen] at this
    simpa using this
  · simp at h

theorem sliceAt_append (pre bs post : Bytes) :
    sliceAt (pre ++ (bs ++ post)) pre.length bs.length = some bs := by
  unfold sliceAt
  rw [if_pos (by simp)]
  simp

theorem u32At_append (pre post : Bytes) {v : Nat} (h : v < 2 ^ 32) :
    u32At (pre ++ (leBytes 4 v ++ post)) pre.length = some v := by
  have := sliceAt_append pre (leBytes 4 v) post
  rw [leBytes_length] at this
  simp [u32At, this, leVal_leBytes_of_lt (show v < 256 ^ 4 by simpa using h)]

theorem Rd.lift_apply {α : Type} (r : Res α) (d : Bytes) (pos : Nat) :
    Rd.lift r d pos = r.map fun a => (a, pos) := by
  cases r <;> rfl

/-- A sequence of two readers succeeds exactly if both do. -/
theorem Rd.bind_ok {α β : Type} {p : Rd α} {f : α → Rd β} {d : Bytes} {pos q : Nat} {b : β} :
    (p >>= f) d pos = .ok (b, q) ↔ ∃ a p1, p d pos = .ok (a, p1) ∧ f a d p1 = .ok (b, q) := by
  rw [bind_apply, Res.bind_eq_ok]
  constructor
  · rintro ⟨⟨a, p1⟩, h1, h2⟩; exact ⟨a, p1, h1, h2⟩
  · rintro ⟨a, p1, h1, h2⟩; exact ⟨(a, p1), h1, h2⟩

theorem Rd.lift_ok {α : Type} {r : Res α} {d : Bytes} {pos q : Nat} {a : α} :
    Rd.lift r d pos = .ok (a, q) ↔ r = .ok a ∧ q = pos := by
  rw [Rd.lift_apply]
  cases r with
  | ok b => simp [eq_comm]
  | err e => simp
  | panic => simp

theorem Rd.assert_ok {c : Bool} {d : Bytes} {pos q : Nat} {u : Unit} :
    Rd.lift (Res.assert c) d pos = .ok (u, q) ↔ c = true ∧ q = pos := by
  rw [Rd.lift_ok]; cases c <;> simp

theorem readExact_ok {n : Nat} {d bs : Bytes} {pos p : Nat} (h : readExact n d pos = .ok (bs, p)) :
    p = pos + n ∧ bs = (d.drop pos).take n ∧ (n ≠ 0 → pos + n ≤ d.length) := by
  by_cases h0 : n = 0
  · subst h0
    simp only [readExact, if_pos] at h
    cases h; simp
  · rw [readExact_eq h0] at h
    unfold sliceAt at h
    by_cases hl : pos + n ≤ d.length
    · rw [if_pos hl] at h
      cases h
      exact ⟨rfl, rfl, fun _ => hl⟩
    · rw [if_neg hl] at h
      cases h

/-- Outcome of reading a chunk identifier. -/
theorem readChunkId_eq (d : Bytes) (pos : Nat) : readChunkId d pos =
    match u32At d pos with
    | none => .err .io
    | some c => match ChunkId.ofCode c with
      | none => .err .unknownChunk
      | some i => .ok (i, pos + 4) := by
  unfold readChunkId
  rw [bind_apply, readU32_eq]
  cases u32At d pos with
  | none => rfl
  | some c => cases h : ChunkId.ofCode c <;> simp [h, Res.ofOption]

theorem ensureChunkType_some {d : Bytes} {pos : Nat} {i : ChunkId} (hi : i ≠ .header)
    (h : u32At d pos = some i.code) : ensureChunkType i d pos = .ok ((), pos + 4) := by
  unfold ensureChunkType
  rw [bind_apply, readChunkId_eq, h]
  simp only [ChunkId.ofCode_code hi]
  simp

theorem ensureChunkType_other {d : Bytes} {pos c : Nat} {i j : ChunkId}
    (h : u32At d pos = some c) (hj : ChunkId.ofCode c = some j) (hne : j ≠ i) :
    ensureChunkType i d pos = .err .format := by
  unfold ensureChunkType
  rw [bind_apply, readChunkId_eq, h]
  simp only [hj]
  simp [hne]

theorem ensureChunkType_unknown {d : Bytes} {pos c : Nat} {i : ChunkId}
    (h : u32At d pos = some c) (hj : ChunkId.ofCode c = none) :
    ensureChunkType i d pos = .err .unknownChunk := by
  unfold ensureChunkType
  rw [bind_apply, readChunkId_eq, h]
  simp only [hj]
  simp

theorem ensureChunkType_none {d : Bytes} {pos : Nat} {i : ChunkId} (h : u32At d pos = none) :
    ensureChunkType i d pos = .err .io := by
  unfold ensureChunkType
  rw [bind_apply, readChunkId_eq, h]
  simp

theorem ofCode_eq_some {c : Nat} {i : ChunkId} (h : ChunkId.ofCode c = some i) : i.code = c := by
  unfold ChunkId.ofCode at h
  split at h <;> simp at h <;> subst h <;> rfl

theorem ensureChunkType_ok {d : Bytes} {pos p : Nat} {i : ChunkId}
    (h : ensureChunkType i d pos = .ok ((), p)) : u32At d pos = some i.code ∧ p = pos + 4 := by
  cases hu : u32At d pos with
  | none => rw [ensureChunkType_none hu] at h; simp at h
  | some c =>
    cases hc : ChunkId.ofCode c with
    | none => rw [ensureChunkType_unknown hu hc] at h; simp at h
    | some j =>
      by_cases hj : j = i
      · subst hj
        have e := ofCode_eq_some hc
        subst e
        have hne : j ≠ .header := by rintro rfl; simp [ChunkId.ofCode, ChunkId.code] at hc
        rw [ensureChunkType_some hne hu] at h
        simp at h; simp [h]
      · rw [ensureChunkType_other hu hc hj] at h; simp at h

theorem ensureDataType_some {d : Bytes} {pos t : Nat} (h : u32At d pos = some t) :
    ensureDataType t d pos = .ok ((), pos + 4) := by
  unfold ensureDataType
  rw [bind_apply, readU32_some h]; simp

theorem ensureDataType_other {d : Bytes} {pos t c : Nat} (h : u32At d pos = some c) (hc : c ≠ t) :
    ensureDataType t d pos = .err .format := by
  unfold ensureDataType
  rw [bind_apply, readU32_some h]; simp [hc]

theorem ensureDataType_ok {d : Bytes} {pos t p : Nat} (h : ensureDataType t d pos = .ok ((), p)) :
    u32At d pos = some t ∧ p = pos + 4 := by
  cases hu : u32At d pos with
  | none => unfold ensureDataType at h; rw [bind_apply, readU32_none hu] at h; simp at h
  | some c =>
    by_cases hc : c = t
    · subst hc; rw [ensureDataType_some hu] at h; simp at h; simp [h]
    · rw [ensureDataType_other hu hc] at h; simp at h

end FF
