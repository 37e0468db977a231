import Verif.Model.Pieces
import Verif.Props.Text
import Verif.Props.Requests
import Verif.Props.Accepted
import Verif.Props.LineEnds

/-!
# C120: the way in which a stream delivers its data
-/

namespace FF

open Rd

namespace Pieces

/-! ## Specification -/

/-- The stream has these bytes and is at this position, as seen by its user; the buffer holds the bytes that follow. -/
structure BufReader.At (b : BufReader) (d : Bytes) (pos : Nat) : Prop where
  data : b.inner.data = d
  ahead : b.inner.pos = pos + b.buf.length
  buf : b.buf = (d.drop pos).take b.buf.length

/-- The stream is not interrupted forever. -/
def Source.Fair (s : Source) : Prop := ∀ t, ∃ k, s.script (t + k) ≠ none

/-- The same outcome on the stream and on the bytes: with the same value and position, the same error, or a panic. -/
def SameOutcome {α : Type} (d : Bytes) : Res (α × BufReader) → Res (α × Nat) → Prop
  | .ok (a, b), r => ∃ pos, r = .ok (a, pos) ∧ b.At d pos
  | .err e, r => r = .err e
  | .panic, r => r = .panic

/-! ## Single reads -/

theorem Source.read_some {s s' : Source} {n : Nat} {bs : Bytes} (h : s.read n = (some bs, s')) :
    s'.data = s.data ∧ s'.script = s.script ∧ s'.pos = s.pos + bs.length ∧ bs = (s.data.drop s.pos).take bs.length ∧
      bs.length ≤ n ∧ (bs = [] → n = 0 ∨ s.data.length ≤ s.pos) := by
  unfold Source.read at h
  cases hs : s.script s.time with
  | none => rw [hs] at h; simp at h
  | some k =>
    rw [hs] at h
    simp only [Prod.mk.injEq, Option.some.injEq] at h
    obtain ⟨rfl, rfl⟩ := h
    refine ⟨rfl, rfl, rfl, ?_, ?_, ?_⟩
    · rw [List.length_take, List.take_eq_take_iff]
      simp
    · rw [List.length_take]; omega
    · intro h
      have := congrArg List.length h
      rw [List.length_take, List.length_drop, List.length_nil] at this
      omega

theorem Source.read_none {s s' : Source} {n : Nat} (h : s.read n = (none, s')) :
    s' = { s with time := s.time + 1 } ∧ s.script s.time = none := by
  unfold Source.read at h
  cases hs : s.script s.time with
  | none => rw [hs] at h; simp only [Prod.mk.injEq, true_and] at h; exact ⟨h.symm, rfl⟩
  | some k => rw [hs] at h; simp at h

theorem slice_append {d : Bytes} {pos i j : Nat} :
    (d.drop pos).take i ++ (d.drop (pos + i)).take j = (d.drop pos).take (i + j) := by
  rw [List.take_add, List.drop_drop]

theorem BufReader.At.consume {b : BufReader} {d : Bytes} {pos n : Nat} (h : b.At d pos) (hn : n ≤ b.buf.length) :
    (b.consume n).At d (pos + n) := by
  refine ⟨h.data, ?_, ?_⟩
  · simp only [BufReader.consume, List.length_drop]
    have := h.ahead
    omega
  · simp only [BufReader.consume, List.length_drop]
    conv => lhs; rw [h.buf]
    rw [List.drop_take, List.drop_drop]

theorem fillBuf_some {b b' : BufReader} {avail d : Bytes} {pos : Nat} (hb : b.At d pos) (h : b.fillBuf = (some avail, b')) :
    b'.At d pos ∧ b'.buf = avail ∧ b'.cap = b.cap ∧ b'.inner.script = b.inner.script ∧
      (avail = [] → b.cap = 0 ∨ d.length ≤ pos) := by
  unfold BufReader.fillBuf at h
  split at h
  · next h0 =>
    cases hr : b.inner.read b.cap with
    | mk r s =>
      rw [hr] at h
      cases r with
      | none => simp at h
      | some bs =>
        simp only [Prod.mk.injEq, Option.some.injEq] at h
        obtain ⟨rfl, rfl⟩ := h
        obtain ⟨h1, h2, h3, h4, h5, h6⟩ := Source.read_some hr
        have hp := hb.ahead
        rw [h0, List.length_nil, Nat.add_zero] at hp
        refine ⟨⟨h1.trans hb.data, by rw [h3, hp], ?_⟩, rfl, rfl, h2, ?_⟩
        · rw [hb.data, hp] at h4; exact h4
        · rw [hb.data, hp] at h6; exact h6
  · next h0 =>
    simp only [Prod.mk.injEq, Option.some.injEq] at h
    obtain ⟨rfl, rfl⟩ := h
    exact ⟨hb, rfl, rfl, rfl, fun h => absurd h h0⟩

theorem fillBuf_none {b b' : BufReader} {d : Bytes} {pos : Nat} (hb : b.At d pos) (h : b.fillBuf = (none, b')) :
    b'.At d pos ∧ b'.cap = b.cap ∧ b'.inner.script = b.inner.script ∧ b'.inner.time = b.inner.time + 1 ∧
      b.inner.script b.inner.time = none := by
  unfold BufReader.fillBuf at h
  split at h
  · next h0 =>
    cases hr : b.inner.read b.cap with
    | mk r s =>
      rw [hr] at h
      cases r with
      | some bs => simp at h
      | none =>
        simp only [Prod.mk.injEq, true_and] at h
        subst h
        obtain ⟨rfl, h2⟩ := Source.read_none hr
        exact ⟨⟨hb.data, hb.ahead, hb.buf⟩, rfl, rfl, rfl, h2⟩
  · simp at h

theorem read_some {b b' : BufReader} {bs d : Bytes} {pos n : Nat} (hb : b.At d pos) (h : b.read n = (some bs, b')) :
    b'.At d (pos + bs.length) ∧ bs = (d.drop pos).take bs.length ∧ bs.length ≤ n ∧ b'.cap = b.cap ∧
      b'.inner.script = b.inner.script ∧ (bs = [] → n = 0 ∨ d.length ≤ pos) := by
  unfold BufReader.read at h
  split at h
  · next h0 =>
    cases hr : b.inner.read n with
    | mk r s =>
      rw [hr] at h
      simp only [Prod.mk.injEq] at h
      obtain ⟨rfl, rfl⟩ := h
      obtain ⟨h1, h2, h3, h4, h5, h6⟩ := Source.read_some hr
      have hp := hb.ahead
      rw [h0.1, List.length_nil, Nat.add_zero] at hp
      refine ⟨⟨h1.trans hb.data, ?_, ?_⟩, ?_, h5, rfl, h2, ?_⟩
      · simp only [h0.1, List.length_nil]; rw [h3, hp]; rfl
      · simp only [h0.1, List.length_nil, List.take_zero]
      · rw [hb.data, hp] at h4; exact h4
      · rw [hb.data, hp] at h6; exact h6
  · next h0 =>
    cases hf : b.fillBuf with
    | mk r b1 =>
      rw [hf] at h
      cases r with
      | none => simp at h
      | some avail =>
        simp only [Prod.mk.injEq, Option.some.injEq] at h
        obtain ⟨rfl, rfl⟩ := h
        obtain ⟨h1, h2, h3, h4, h5⟩ := fillBuf_some hb hf
        have hl : (avail.take n).length = min n avail.length := List.length_take
        refine ⟨?_, ?_, ?_, h3, h4, ?_⟩
        · rw [hl]; exact BufReader.At.consume h1 (by rw [h2]; omega)
        · have := h1.buf
          rw [h2] at this
          conv => lhs; rw [this, List.take_take]
          rw [hl]
        · omega
        · intro he
          have he := congrArg List.length he
          rw [hl, List.length_nil] at he
          by_cases hn : n = 0
          · exact .inl hn
          · have ha : avail = [] := List.length_eq_zero_iff.mp (by omega)
            rcases h5 ha with h | h
            · exfalso
              refine h0 ⟨?_, by omega⟩
              unfold BufReader.fillBuf at hf
              split at hf
              · assumption
              · simp only [Prod.mk.injEq, Option.some.injEq] at hf; rw [hf.1, ha]
            · exact .inr h

theorem read_none {b b' : BufReader} {d : Bytes} {pos n : Nat} (hb : b.At d pos) (h : b.read n = (none, b')) :
    b'.At d pos ∧ b'.cap = b.cap ∧ b'.inner.script = b.inner.script ∧ b'.inner.time = b.inner.time + 1 ∧
      b.inner.script b.inner.time = none := by
  unfold BufReader.read at h
  split at h
  · next h0 =>
    cases hr : b.inner.read n with
    | mk r s =>
      rw [hr] at h
      simp only [Prod.mk.injEq] at h
      obtain ⟨rfl, rfl⟩ := h
      obtain ⟨rfl, h2⟩ := Source.read_none hr
      exact ⟨⟨hb.data, hb.ahead, hb.buf⟩, rfl, rfl, rfl, h2⟩
  · cases hf : b.fillBuf with
    | mk r b1 =>
      rw [hf] at h
      cases r with
      | some avail => simp at h
      | none =>
        simp only [Prod.mk.injEq, true_and] at h
        subst h
        exact fillBuf_none hb hf

/-! ## Loops -/

/-- What stays the same. -/
def Kept (b b' : BufReader) : Prop := b'.cap = b.cap ∧ b'.inner.script = b.inner.script

theorem Kept.trans {a b c : BufReader} (h : Kept a b) (h' : Kept b c) : Kept a c := ⟨h'.1.trans h.1, h'.2.trans h.2⟩

theorem defaultReadExact_spec {b b' : BufReader} {n : Nat} {r : Option Bytes} (h : DefaultReadExact b n r b') :
    ∀ {d : Bytes} {pos : Nat}, b.At d pos → Kept b b' ∧
      ((∃ bs, r = some bs ∧ bs = (d.drop pos).take n ∧ (n = 0 ∨ pos + n ≤ d.length) ∧ b'.At d (pos + n)) ∨
        (r = none ∧ n ≠ 0 ∧ d.length < pos + n)) := by
  induction h with
  | done b => exact fun hb => ⟨⟨rfl, rfl⟩, .inl ⟨[], rfl, by simp, .inl rfl, hb⟩⟩
  | eof h0 hr =>
    intro d pos hb
    obtain ⟨h1, -, -, h4, h5, h6⟩ := read_some hb hr
    exact ⟨⟨h4, h5⟩, .inr ⟨rfl, h0, by have := (h6 rfl).resolve_left h0; omega⟩⟩
  | @more b b' b'' n bs r h0 hne hr _ ih =>
    intro d pos hb
    obtain ⟨h1, h2, h3, h4, h5, h6⟩ := read_some hb hr
    obtain ⟨k, ih⟩ := ih h1
    refine ⟨Kept.trans ⟨h4, h5⟩ k, ?_⟩
    have hpos : 0 < bs.length := List.length_pos_iff.mpr hne
    have hle : pos + bs.length ≤ d.length := by
      have := congrArg List.length h2
      rw [List.length_take, List.length_drop] at this
      omega
    rcases ih with ⟨bs', rfl, h7, h8, h9⟩ | ⟨rfl, h7, h8⟩
    · left
      refine ⟨bs ++ bs', rfl, ?_, by omega, ?_⟩
      · conv => lhs; rw [h2, h7]
        rw [slice_append, show bs.length + (n - bs.length) = n by omega]
      · rw [show pos + n = pos + bs.length + (n - bs.length) by omega]; exact h9
    · exact .inr ⟨rfl, h0, by omega⟩
  | interrupted h0 hr _ ih =>
    intro d pos hb
    obtain ⟨h1, h2, h3, -⟩ := read_none hb hr
    obtain ⟨k, ih⟩ := ih h1
    exact ⟨Kept.trans ⟨h2, h3⟩ k, ih⟩

theorem readExact_spec {b b' : BufReader} {n : Nat} {r : Option Bytes} (h : ReadExact b n r b') {d : Bytes} {pos : Nat}
    (hb : b.At d pos) : Kept b b' ∧
      ((∃ bs, r = some bs ∧ Rd.readExact n d pos = .ok (bs, pos + n) ∧ b'.At d (pos + n)) ∨
        (r = none ∧ Rd.readExact n d pos = .err .io)) := by
  cases h with
  | buffered hn =>
    refine ⟨⟨rfl, rfl⟩, .inl ⟨_, rfl, ?_, BufReader.At.consume hb hn⟩⟩
    have hl := congrArg List.length hb.buf
    rw [List.length_take, List.length_drop] at hl
    have htake : b.buf.take n = (d.drop pos).take n := by
      rw [hb.buf, List.take_take]
      congr 1
      omega
    unfold Rd.readExact
    by_cases h0 : n = 0
    · subst h0; simp
    · rw [if_neg h0, if_pos (by omega), htake]
  | loop hn hl =>
    obtain ⟨k, h⟩ := defaultReadExact_spec hl hb
    refine ⟨k, ?_⟩
    rcases h with ⟨bs, rfl, h1, h2, h3⟩ | ⟨rfl, h1, h2⟩
    · refine .inl ⟨bs, rfl, ?_, h3⟩
      unfold Rd.readExact
      rw [if_neg (by omega), if_pos (by omega), h1]
    · refine .inr ⟨rfl, ?_⟩
      unfold Rd.readExact
      rw [if_neg h1, if_neg (by omega)]

theorem takeThrough_skip {delim : UInt8} {a b : Bytes} (h : delim ∉ a) :
    takeThrough delim (a ++ b) = a ++ takeThrough delim b := by
  induction a with
  | nil => rfl
  | cons x xs ih =>
    simp only [List.mem_cons, not_or] at h
    rw [List.cons_append, List.cons_append, takeThrough, if_neg fun e => h.1 e.symm, ih h.2]

theorem readUntil_spec {delim : UInt8} {b b' : BufReader} {bs : Bytes} (h : ReadUntil delim b bs b') :
    ∀ {d : Bytes} {pos : Nat}, b.At d pos → 0 < b.cap → Kept b b' ∧ bs = takeThrough delim (d.drop pos) ∧
      b'.At d (pos + bs.length) := by
  induction h with
  | interrupted hf _ ih =>
    intro d pos hb hc
    obtain ⟨h1, h2, h3, -⟩ := fillBuf_none hb hf
    obtain ⟨k, ih⟩ := ih h1 (by rw [h2]; exact hc)
    exact ⟨Kept.trans ⟨h2, h3⟩ k, ih⟩
  | @found b b' avail used rest hf ha hu =>
    intro d pos hb hc
    obtain ⟨h1, h2, h3, h4, -⟩ := fillBuf_some hb hf
    have hbuf := h1.buf
    rw [h2] at hbuf
    refine ⟨⟨h3, h4⟩, ?_, ?_⟩
    · have : d.drop pos = avail ++ (d.drop pos).drop avail.length := by
        conv => lhs; rw [← List.take_append_drop avail.length (d.drop pos), ← hbuf]
      rw [this, ha, List.append_assoc, List.cons_append, takeThrough_append hu]
    · rw [List.length_append, List.length_singleton]
      exact BufReader.At.consume h1 (by rw [h2, ha]; simp)
  | eof hf =>
    intro d pos hb hc
    obtain ⟨h1, h2, h3, h4, h5⟩ := fillBuf_some hb hf
    have := (h5 rfl).resolve_left (by omega)
    exact ⟨⟨h3, h4⟩, by rw [List.drop_eq_nil_of_le this]; rfl, h1⟩
  | @more b b' b'' avail bs hf hne hu _ ih =>
    intro d pos hb hc
    obtain ⟨h1, h2, h3, h4, -⟩ := fillBuf_some hb hf
    have h1' := BufReader.At.consume h1 (n := avail.length) (by rw [h2]; exact Nat.le_refl _)
    obtain ⟨k, e, ih⟩ := ih h1' (by show 0 < b'.cap; rw [h3]; exact hc)
    have hbuf := h1.buf
    rw [h2] at hbuf
    refine ⟨Kept.trans ⟨h3, h4⟩ k, ?_, ?_⟩
    · have : d.drop pos = avail ++ d.drop (pos + avail.length) := by
        conv => lhs; rw [← List.take_append_drop avail.length (d.drop pos), ← hbuf, List.drop_drop]
      rw [this, e]
      exact (takeThrough_skip hu).symm
    · rw [List.length_append, ← Nat.add_assoc]; exact ih

theorem readLines_spec {b b' : BufReader} {ls : List Bytes} (h : ReadLines b ls b') :
    ∀ {d : Bytes} {pos : Nat}, b.At d pos → 0 < b.cap → Kept b b' ∧
      (∀ fuel, (d.drop pos).length < fuel → ls = rawLines fuel (d.drop pos)) ∧ b'.At d (pos + (d.drop pos).length) := by
  induction h with
  | done hu =>
    intro d pos hb hc
    obtain ⟨k, e, h1⟩ := readUntil_spec hu hb hc
    have h0 : d.drop pos = [] := by
      cases hd : d.drop pos with
      | nil => rfl
      | cons x xs =>
        rw [hd] at e
        have := MRd.takeThrough_pos 10 (bs := x :: xs) (by simp)
        rw [← e] at this
        simp at this
    refine ⟨k, fun fuel hf => ?_, ?_⟩
    · cases fuel with
      | zero => omega
      | succ f => rw [h0]; rfl
    · rw [h0]; exact h1
  | @line b b' b'' l ls hu hne _ ih =>
    intro d pos hb hc
    obtain ⟨k, e, h1⟩ := readUntil_spec hu hb hc
    obtain ⟨k', e', h2⟩ := ih h1 (by rw [k.1]; exact hc)
    have hlen : l.length ≤ (d.drop pos).length := by rw [e]; exact MRd.takeThrough_length_le 10 _
    have hpos : 0 < l.length := List.length_pos_iff.mpr hne
    refine ⟨k.trans k', fun fuel hf => ?_, ?_⟩
    · cases fuel with
      | zero => omega
      | succ f =>
        unfold rawLines
        rw [← e]
        cases l with
        | nil => exact absurd rfl hne
        | cons x xs =>
          simp only [List.cons.injEq, true_and]
          rw [List.drop_drop]
          refine e' f ?_
          rw [List.length_drop] at hf hlen ⊢
          omega
    · rw [List.length_drop] at h2 hlen ⊢
      rwa [show pos + (d.length - pos) = pos + l.length + (d.length - (pos + l.length)) by omega]

/-! ## The loops end -/

theorem slice_le {d bs : Bytes} {pos : Nat} (h : bs = (d.drop pos).take bs.length) (hne : bs ≠ []) :
    pos + bs.length ≤ d.length := by
  have hpos : 0 < bs.length := List.length_pos_iff.mpr hne
  have := congrArg List.length h
  rw [List.length_take, List.length_drop] at this
  omega

theorem defaultReadExact_exists (n : Nat) : ∀ (k : Nat) (b : BufReader) {d : Bytes} {pos : Nat}, b.At d pos → b.inner.Fair →
    b.inner.script (b.inner.time + k) ≠ none → ∃ r b', DefaultReadExact b n r b' := by
  induction n using Nat.strongRecOn with
  | _ n ihn =>
    intro k
    induction k with
    | zero =>
      intro b d pos hb hf hk
      by_cases h0 : n = 0
      · subst h0; exact ⟨_, _, .done b⟩
      cases hr : b.read n with
      | mk r b' =>
        cases r with
        | none => exact absurd (read_none hb hr).2.2.2.2 hk
        | some bs =>
          by_cases he : bs = []
          · subst he; exact ⟨_, _, .eof h0 hr⟩
          · obtain ⟨h1, h2, h3, h4, h5, h6⟩ := read_some hb hr
            have hpos : 0 < bs.length := List.length_pos_iff.mpr he
            have hf' : b'.inner.Fair := by unfold Source.Fair at hf ⊢; rw [h5]; exact hf
            obtain ⟨k', hk'⟩ := hf' b'.inner.time
            obtain ⟨r, b'', h⟩ := ihn (n - bs.length) (by omega) k' b' h1 hf' hk'
            exact ⟨_, _, .more h0 he hr h⟩
    | succ k ihk =>
      intro b d pos hb hf hk
      by_cases h0 : n = 0
      · subst h0; exact ⟨_, _, .done b⟩
      cases hr : b.read n with
      | mk r b' =>
        cases r with
        | none =>
          obtain ⟨h1, h2, h3, h4, -⟩ := read_none hb hr
          have hf' : b'.inner.Fair := by unfold Source.Fair at hf ⊢; rw [h3]; exact hf
          obtain ⟨r, b'', h⟩ := ihk b' h1 hf' (by rw [h3, h4, Nat.add_assoc, Nat.add_comm 1 k]; exact hk)
          exact ⟨_, _, .interrupted h0 hr h⟩
        | some bs =>
          by_cases he : bs = []
          · subst he; exact ⟨_, _, .eof h0 hr⟩
          · obtain ⟨h1, h2, h3, h4, h5, h6⟩ := read_some hb hr
            have hpos : 0 < bs.length := List.length_pos_iff.mpr he
            have hf' : b'.inner.Fair := by unfold Source.Fair at hf ⊢; rw [h5]; exact hf
            obtain ⟨k', hk'⟩ := hf' b'.inner.time
            obtain ⟨r, b'', h⟩ := ihn (n - bs.length) (by omega) k' b' h1 hf' hk'
            exact ⟨_, _, .more h0 he hr h⟩

theorem readExact_exists (n : Nat) {b : BufReader} {d : Bytes} {pos : Nat} (hb : b.At d pos) (hf : b.inner.Fair) :
    ∃ r b', ReadExact b n r b' := by
  by_cases h : n ≤ b.buf.length
  · exact ⟨_, _, .buffered h⟩
  · obtain ⟨k, hk⟩ := hf b.inner.time
    obtain ⟨r, b', h'⟩ := defaultReadExact_exists n k b hb hf hk
    exact ⟨r, b', .loop (by omega) h'⟩

theorem readUntil_exists (delim : UInt8) (m : Nat) : ∀ (k : Nat) (b : BufReader) {d : Bytes} {pos : Nat}, d.length - pos = m →
    b.At d pos → b.inner.Fair → b.inner.script (b.inner.time + k) ≠ none → ∃ bs b', ReadUntil delim b bs b' := by
  induction m using Nat.strongRecOn with
  | _ m ihm =>
    have hsome : ∀ {b b' : BufReader} {avail d : Bytes} {pos : Nat}, d.length - pos = m → b.At d pos → b.inner.Fair →
        b.fillBuf = (some avail, b') → ∃ bs b', ReadUntil delim b bs b' := by
      intro b b' avail d pos hm hb hf hr
      obtain ⟨h1, h2, h3, h4, -⟩ := fillBuf_some hb hr
      by_cases hd : delim ∈ avail
      · obtain ⟨used, rest, ha, hu⟩ := List.eq_append_cons_of_mem hd
        exact ⟨_, _, .found hr ha hu⟩
      by_cases he : avail = []
      · subst he; exact ⟨_, _, .eof hr⟩
      have hpos : 0 < avail.length := List.length_pos_iff.mpr he
      have hle := h1.buf
      rw [h2] at hle
      have hle := slice_le hle he
      have hf' : b'.inner.Fair := by unfold Source.Fair at hf ⊢; rw [h4]; exact hf
      obtain ⟨k', hk'⟩ := hf' b'.inner.time
      obtain ⟨bs, b'', h⟩ := ihm (d.length - (pos + avail.length)) (by omega) k' (b'.consume avail.length) rfl
        (BufReader.At.consume h1 (by rw [h2]; exact Nat.le_refl _)) hf' hk'
      exact ⟨_, _, .more hr he hd h⟩
    intro k
    induction k with
    | zero =>
      intro b d pos hm hb hf hk
      cases hr : b.fillBuf with
      | mk r b' =>
        cases r with
        | none => exact absurd (fillBuf_none hb hr).2.2.2.2 hk
        | some avail => exact hsome hm hb hf hr
    | succ k ihk =>
      intro b d pos hm hb hf hk
      cases hr : b.fillBuf with
      | mk r b' =>
        cases r with
        | none =>
          obtain ⟨h1, h2, h3, h4, -⟩ := fillBuf_none hb hr
          have hf' : b'.inner.Fair := by unfold Source.Fair at hf ⊢; rw [h3]; exact hf
          obtain ⟨bs, b'', h⟩ := ihk b' hm h1 hf' (by rw [h3, h4, Nat.add_assoc, Nat.add_comm 1 k]; exact hk)
          exact ⟨_, _, .interrupted hr h⟩
        | some avail => exact hsome hm hb hf hr

theorem Kept.fair {b b' : BufReader} (h : Kept b b') (hf : b.inner.Fair) : b'.inner.Fair := by
  unfold Source.Fair at hf ⊢
  rw [h.2]
  exact hf

theorem readLines_exists (m : Nat) : ∀ (b : BufReader) {d : Bytes} {pos : Nat}, d.length - pos = m →
    b.At d pos → b.inner.Fair → 0 < b.cap → ∃ ls b', ReadLines b ls b' := by
  induction m using Nat.strongRecOn with
  | _ m ihm =>
    intro b d pos hm hb hf hc
    obtain ⟨k, hk⟩ := hf b.inner.time
    obtain ⟨bs, b', h⟩ := readUntil_exists 10 m k b hm hb hf hk
    by_cases he : bs = []
    · subst he; exact ⟨_, _, .done h⟩
    obtain ⟨k, e, h1⟩ := readUntil_spec h hb hc
    have hpos : 0 < bs.length := List.length_pos_iff.mpr he
    have hle := MRd.takeThrough_length_le 10 (d.drop pos)
    rw [← e, List.length_drop] at hle
    obtain ⟨ls, b'', h'⟩ := ihm (d.length - (pos + bs.length)) (by omega) b' rfl h1 (k.fair hf) (by rw [k.1]; exact hc)
    exact ⟨_, _, .line h he h'⟩

/-! ## Programs -/

theorem BufReader.At.position {b : BufReader} {d : Bytes} {pos : Nat} (h : b.At d pos) : b.position = pos := by
  unfold BufReader.position
  have := h.ahead
  omega

theorem BufReader.At.skip {b : BufReader} {d : Bytes} {pos : Nat} (h : b.At d pos) (n : Nat) : (b.skip n).At d (pos + n) := by
  have := h.ahead
  exact ⟨h.data, by simp only [BufReader.skip, List.length_nil]; omega, by simp [BufReader.skip]⟩

theorem BufReader.At.seek {b : BufReader} {d : Bytes} {pos : Nat} (h : b.At d pos) (n : Nat) : (b.seek n).At d n :=
  ⟨h.data, rfl, by simp [BufReader.seek]⟩

/-- Every program ends on a stream that is not interrupted forever, and every run has the outcome on the bytes, however the
stream delivers them. -/
theorem c120_runs {α : Type} (q : Prog α) : ∀ {b : BufReader} {d : Bytes} {pos : Nat}, b.At d pos → b.inner.Fair →
    (0 < b.cap ∨ q.Plain) → (∃ r, Runs q b r) ∧ ∀ r, Runs q b r → SameOutcome d r (q.onBytes d pos) := by
  induction q with
  | pure a =>
    intro b d pos hb hf hc
    refine ⟨⟨_, .pure⟩, fun r hr => ?_⟩
    cases hr
    exact ⟨pos, rfl, hb⟩
  | fail e =>
    intro b d pos hb hf hc
    refine ⟨⟨_, .fail⟩, fun r hr => ?_⟩
    cases hr
    rfl
  | panic =>
    intro b d pos hb hf hc
    refine ⟨⟨_, .panic⟩, fun r hr => ?_⟩
    cases hr
    rfl
  | exact n k ih =>
    intro b d pos hb hf hc
    have hc' : ∀ {b' : BufReader} (bs : Bytes), Kept b b' → 0 < b'.cap ∨ (k bs).Plain :=
      fun bs h => hc.imp (fun hc => by rw [h.1]; exact hc) fun hc => hc bs
    constructor
    · obtain ⟨r, b', h⟩ := readExact_exists n hb hf
      obtain ⟨kept, ⟨bs, rfl, h1, h2⟩ | ⟨rfl, h1⟩⟩ := readExact_spec h hb
      · obtain ⟨r, hr⟩ := (ih bs h2 (kept.fair hf) (hc' bs kept)).1
        exact ⟨r, .exact h hr⟩
      · exact ⟨_, .exactEof h⟩
    · intro r hr
      cases hr with
      | exact h hr =>
        obtain ⟨kept, ⟨bs, e, h1, h2⟩ | ⟨e, h1⟩⟩ := readExact_spec h hb
        · cases e
          simp only [Prog.onBytes, Rd.bind_apply, h1]
          exact (ih _ h2 (kept.fair hf) (hc' _ kept)).2 r hr
        · cases e
      | exactEof h =>
        obtain ⟨kept, ⟨bs, e, h1, h2⟩ | ⟨e, h1⟩⟩ := readExact_spec h hb
        · cases e
        · simp only [Prog.onBytes, Rd.bind_apply, h1]
          rfl
  | readUntil delim k ih =>
    intro b d pos hb hf hc
    have hc := hc.resolve_right id
    constructor
    · obtain ⟨t, ht⟩ := hf b.inner.time
      obtain ⟨bs, b', h⟩ := readUntil_exists delim _ t b rfl hb hf ht
      obtain ⟨kept, h1, h2⟩ := readUntil_spec h hb hc
      obtain ⟨r, hr⟩ := (ih bs h2 (kept.fair hf) (.inl (by rw [kept.1]; exact hc))).1
      exact ⟨r, .readUntil h hr⟩
    · intro r hr
      cases hr with
      | readUntil h hr =>
        obtain ⟨kept, h1, h2⟩ := readUntil_spec h hb hc
        have := (ih _ h2 (kept.fair hf) (.inl (by rw [kept.1]; exact hc))).2 r hr
        simp only [Prog.onBytes, Rd.bind_apply, readUntil, ← h1]
        exact this
  | lines k ih =>
    intro b d pos hb hf hc
    have hc := hc.resolve_right id
    constructor
    · obtain ⟨ls, b', h⟩ := readLines_exists _ b rfl hb hf hc
      obtain ⟨kept, h1, h2⟩ := readLines_spec h hb hc
      obtain ⟨r, hr⟩ := (ih ls h2 (kept.fair hf) (.inl (by rw [kept.1]; exact hc))).1
      exact ⟨r, .lines h hr⟩
    · intro r hr
      cases hr with
      | lines h hr =>
        obtain ⟨kept, h1, h2⟩ := readLines_spec h hb hc
        have := (ih _ h2 (kept.fair hf) (.inl (by rw [kept.1]; exact hc))).2 r hr
        rw [h1 ((d.drop pos).length + 1) (Nat.lt_succ_self _)] at this
        exact this
  | position k ih =>
    intro b d pos hb hf hc
    have hp := hb.position
    have hi := ih pos hb hf (hc.imp id fun h => h pos)
    constructor
    · obtain ⟨r, hr⟩ := hi.1
      exact ⟨r, .position (by rw [hp]; exact hr)⟩
    · intro r hr
      cases hr with
      | position hr => rw [hp] at hr; exact hi.2 r hr
  | skip n k ih =>
    intro b d pos hb hf hc
    have hi := ih (hb.skip n) hf hc
    constructor
    · obtain ⟨r, hr⟩ := hi.1
      exact ⟨r, .skip hr⟩
    · intro r hr
      cases hr with
      | skip hr => exact hi.2 r hr
  | seek n k ih =>
    intro b d pos hb hf hc
    have hi := ih (hb.seek n) hf hc
    constructor
    · obtain ⟨r, hr⟩ := hi.1
      exact ⟨r, .seek hr⟩
    · intro r hr
      cases hr with
      | seek hr => exact hi.2 r hr
  | map len k ih =>
    intro b d pos hb hf hc
    have hp := hb.position
    have hi := ih ⟨d, pos, len⟩ (hb.skip len) hf (hc.imp id fun h => h _)
    constructor
    · by_cases hl : len ≤ isizeMax
      · obtain ⟨r, hr⟩ := hi.1
        exact ⟨r, .map hl (by rw [hp, hb.data]; exact hr)⟩
      · exact ⟨_, .mapFail hl⟩
    · intro r hr
      cases hr with
      | map hl hr =>
        rw [hp, hb.data] at hr
        simp only [Prog.onBytes, Rd.bind_apply, mapRegion, if_pos hl]
        exact hi.2 r hr
      | mapFail hl =>
        simp only [Prog.onBytes, Rd.bind_apply, mapRegion, if_neg hl]
        rfl

/-! ## Readers as programs -/

/-- One program after the other. -/
def Prog.bind {α β : Type} : Prog α → (α → Prog β) → Prog β
  | .pure a, f => f a
  | .fail e, _ => .fail e
  | .panic, _ => .panic
  | .exact n k, f => .exact n fun bs => (k bs).bind f
  | .readUntil delim k, f => .readUntil delim fun bs => (k bs).bind f
  | .lines k, f => .lines fun ls => (k ls).bind f
  | .position k, f => .position fun p => (k p).bind f
  | .skip n k, f => .skip n (k.bind f)
  | .seek n k, f => .seek n (k.bind f)
  | .map len k, f => .map len fun m => (k m).bind f

theorem Prog.bind_plain {α β : Type} (q : Prog α) {f : α → Prog β} (hq : q.Plain) (hf : ∀ a, (f a).Plain) : (q.bind f).Plain := by
  induction q with
  | pure a => exact hf a
  | fail e => trivial
  | panic => trivial
  | exact n k ih => exact fun bs => ih bs (hq bs)
  | readUntil delim k ih => exact hq
  | lines k ih => exact hq
  | position k ih => exact fun p => ih p (hq p)
  | skip n k ih => exact ih hq
  | seek n k ih => exact ih hq
  | map len k ih => exact fun m => ih m (hq m)

theorem Prog.onBytes_bind {α β : Type} (q : Prog α) (f : α → Prog β) (d : Bytes) : ∀ pos, (q.bind f).onBytes d pos =
    (q.onBytes >>= fun a => (f a).onBytes) d pos := by
  induction q with
  | pure a => intro pos; rfl
  | fail e => intro pos; rfl
  | panic => intro pos; rfl
  | exact n k ih =>
    intro pos
    simp only [Prog.bind, Prog.onBytes, Rd.bind_apply]
    cases readExact n d pos with
    | ok r => exact ih r.1 r.2
    | err e => rfl
    | panic => rfl
  | readUntil delim k ih => intro pos; exact ih _ _
  | lines k ih => intro pos; exact ih _ _
  | position k ih => intro pos; exact ih _ _
  | skip n k ih => intro pos; exact ih _
  | seek n k ih => intro pos; exact ih _
  | map len k ih =>
    intro pos
    simp only [Prog.bind, Prog.onBytes, Rd.bind_apply]
    cases mapRegion len d pos with
    | ok r => exact ih r.1 r.2
    | err e => rfl
    | panic => rfl

/-- A program makes calls that compute this reader. -/
def Prog.Implements {α : Type} (q : Prog α) (p : Rd α) : Prop := ∀ d pos, q.onBytes d pos = p d pos

/-- The reader is a program; one that does not need `BufRead` if `plain`. -/
structure IsProg {α : Type} (plain : Bool) (p : Rd α) : Prop where
  ex : ∃ q : Prog α, (plain = true → q.Plain) ∧ q.Implements p

namespace IsProg

variable {α β : Type} {w : Bool}

theorem pure (a : α) : IsProg w (Pure.pure a : Rd α) := ⟨.pure a, fun _ => trivial, fun _ _ => rfl⟩
theorem fail (e : Err) : IsProg w (Rd.fail e : Rd α) := ⟨.fail e, fun _ => trivial, fun _ _ => rfl⟩

theorem lift (r : Res α) : IsProg w (Rd.lift r) := by
  cases r with
  | ok a => exact ⟨.pure a, fun _ => trivial, fun _ _ => rfl⟩
  | err e => exact ⟨.fail e, fun _ => trivial, fun _ _ => rfl⟩
  | panic => exact ⟨.panic, fun _ => trivial, fun _ _ => rfl⟩

theorem alloc (s n : Nat) : IsProg w (Rd.alloc s n) := lift _

theorem bind {p : Rd α} {f : α → Rd β} (hp : IsProg w p) (hf : ∀ a, IsProg w (f a)) : IsProg w (p >>= f) := by
  obtain ⟨q, h1, h2⟩ := hp.ex
  refine ⟨q.bind fun a => Classical.choose (hf a).ex, fun h => ?_, fun d pos => ?_⟩
  · exact Prog.bind_plain q (h1 h) fun a => (Classical.choose_spec (hf a).ex).1 h
  · rw [Prog.onBytes_bind, Rd.bind_apply, Rd.bind_apply, h2]
    cases p d pos with
    | ok r => exact (Classical.choose_spec (hf r.1).ex).2 d r.2
    | err e => rfl
    | panic => rfl

theorem readExact (n : Nat) : IsProg w (Rd.readExact n) := by
  refine ⟨.exact n .pure, fun _ _ => trivial, fun d pos => ?_⟩
  simp only [Prog.onBytes, Rd.bind_apply]
  cases Rd.readExact n d pos <;> rfl

theorem position : IsProg w Rd.position := ⟨.position .pure, fun _ _ => trivial, fun _ _ => rfl⟩
theorem skip (n : Nat) : IsProg w (Rd.skip n) := ⟨.skip n (.pure ()), fun _ => trivial, fun _ _ => rfl⟩

theorem mapRegion (len : Nat) : IsProg w (FF.mapRegion len) := by
  refine ⟨.map len .pure, fun _ _ => trivial, fun d pos => ?_⟩
  simp only [Prog.onBytes, Rd.bind_apply]
  cases FF.mapRegion len d pos <;> rfl

theorem readUntil (delim : UInt8) : IsProg false (FF.readUntil delim) :=
  ⟨.readUntil delim .pure, (fun h => Bool.noConfusion h), fun _ _ => rfl⟩

theorem readU32 : IsProg w Rd.readU32 := (readExact 4).bind fun _ => pure _
theorem readU64 : IsProg w Rd.readU64 := (readExact 8).bind fun _ => pure _
theorem readF32s (n : Nat) : IsProg w (Rd.readF32s n) := (readExact _).bind fun _ => pure _

theorem replicateM {p : Rd α} (hp : IsProg w p) (n : Nat) : IsProg w (Rd.replicateM n p) := by
  induction n with
  | zero => exact pure _
  | succ n ih => exact hp.bind fun _ => ih.bind fun _ => pure _

/-- A program may be used where `BufRead` is at hand. -/
theorem buffered {p : Rd α} (h : IsProg w p) : IsProg false p := by
  obtain ⟨q, -, h⟩ := h.ex
  exact ⟨q, fun h => (by cases h), h⟩

end IsProg

/-- Decomposes a reader into its calls. -/
macro "prog_tac" : tactic => `(tactic|
  repeat' (first
    | exact IsProg.pure _ | exact IsProg.lift _ | exact IsProg.fail _ | exact IsProg.alloc _ _
    | exact IsProg.position | exact IsProg.skip _ | exact IsProg.readExact _ | exact IsProg.readU32
    | exact IsProg.readU64 | exact IsProg.readF32s _ | exact IsProg.mapRegion _ | exact IsProg.readUntil _
    | apply IsProg.replicateM | assumption
    | (apply IsProg.bind) | split | (intro _)))

/-! ### The readers of the crate -/

section
variable {w : Bool}

theorem prog_chunkId : IsProg w readChunkId := by unfold readChunkId; prog_tac
theorem prog_chunkType (i : ChunkId) : IsProg w (ensureChunkType i) := by
  unfold ensureChunkType; exact prog_chunkId.bind fun c => (by prog_tac)
theorem prog_dataType (i : Nat) : IsProg w (ensureDataType i) := by unfold ensureDataType; prog_tac
theorem prog_header : IsProg w Header.read := by unfold Header.read; have := prog_chunkId (w := w); prog_tac

theorem prog_peek : IsProg w peekChunkId := by
  obtain ⟨q, h1, h2⟩ := (prog_chunkId (w := w)).ex
  refine ⟨.position fun p => q.bind fun c => .seek p (.pure c), fun h p => Prog.bind_plain q (h1 h) fun _ => trivial, fun d pos => ?_⟩
  simp only [Prog.onBytes, Rd.bind_apply, Rd.position]
  show (q.bind fun c => .seek pos (.pure c)).onBytes d pos = _
  rw [Prog.onBytes_bind, Rd.bind_apply, h2]
  unfold peekChunkId
  cases readChunkId d pos <;> rfl

theorem prog_metadata {T : Type} [Toml T] : IsProg w (readMetadata : Rd (Metadata T)) := by
  unfold readMetadata
  have := fun i => prog_chunkType (w := w) i
  prog_tac

theorem prog_optMetadata {T : Type} [Toml T] : IsProg w (readOptMetadata : Rd (Option (Metadata T))) := by
  unfold readOptMetadata
  have h1 := prog_header (w := w)
  have h2 := prog_metadata (w := w) (T := T)
  prog_tac

theorem prog_string : IsProg w readString := by unfold readString; prog_tac
theorem prog_items (n : Nat) : IsProg w (readVocabItems n) := by unfold readVocabItems; have := prog_string (w := w); prog_tac

theorem prog_simple : IsProg w SimpleVocab.read := by
  unfold SimpleVocab.read; prog_tac

theorem prog_bucketed {I : Type} [BucketIndexer I] (id : ChunkId) : IsProg w (readBucketed id : Rd (SubwordVocab I)) := by
  unfold readBucketed; prog_tac

theorem prog_ngram : IsProg w readNgram := by unfold readNgram; prog_tac
theorem prog_ngrams (n : Nat) : IsProg w (readNgrams n) := by unfold readNgrams; have := prog_ngram (w := w); prog_tac
theorem prog_explicit : IsProg w readExplicit := by
  unfold readExplicit; prog_tac

theorem prog_floretChunk : IsProg w readFloret := by
  unfold readFloret; prog_tac

theorem prog_vocabWrap : IsProg w readVocabWrap := by
  unfold readVocabWrap
  refine prog_peek.bind fun id => ?_
  split
  · exact prog_simple.bind fun _ => .pure _
  · exact (prog_bucketed _).bind fun _ => .pure _
  · exact (prog_bucketed _).bind fun _ => .pure _
  · exact prog_explicit.bind fun _ => .pure _
  · exact prog_floretChunk.bind fun _ => .pure _
  · exact .fail _

theorem prog_allocArray (s : Nat) (l : List Nat) : IsProg w (allocArray s l) := .lift _

theorem prog_ndArrayHead : IsProg w readNdArrayHead := by
  unfold readNdArrayHead; prog_tac

theorem prog_ndArray : IsProg w readNdArray := by
  unfold readNdArray
  refine prog_ndArrayHead.bind fun _ => ?_
  prog_tac

theorem prog_mmapNdArray : IsProg w mmapNdArray := by
  unfold mmapNdArray
  refine prog_ndArrayHead.bind fun _ => ?_
  prog_tac

theorem prog_pq : IsProg w readPq := by
  unfold readPq readProjection readQuantizers; prog_tac

theorem prog_quantizedHead : IsProg w readQuantizedHead := by
  unfold readQuantizedHead readQuantizedNorms; prog_tac

theorem prog_quantized : IsProg w readQuantizedArray := by
  unfold readQuantizedArray
  refine prog_quantizedHead.bind fun _ => ?_
  prog_tac

theorem prog_mmapQuantized : IsProg w mmapQuantizedArray := by
  unfold mmapQuantizedArray
  refine prog_quantizedHead.bind fun _ => ?_
  prog_tac

theorem prog_norms : IsProg w readNorms := by
  unfold readNorms; prog_tac

theorem prog_storageWrap : IsProg w readStorageWrap := by
  unfold readStorageWrap
  refine prog_peek.bind fun id => ?_
  split
  · exact prog_ndArray.bind fun _ => .pure _
  · exact prog_quantized.bind fun _ => .pure _
  · exact .fail _

theorem prog_mmapStorageWrap : IsProg w mmapStorageWrap := by
  unfold mmapStorageWrap
  refine prog_peek.bind fun id => ?_
  split
  · exact prog_mmapNdArray.bind fun _ => .pure _
  · exact prog_mmapQuantized.bind fun _ => .pure _
  · exact .fail _

theorem prog_storageViewWrap : IsProg w readStorageViewWrap := by
  unfold readStorageViewWrap
  refine prog_peek.bind fun id => ?_
  split
  · exact prog_ndArray.bind fun _ => .pure _
  · exact .fail _

theorem prog_mmapStorageViewWrap : IsProg w mmapStorageViewWrap := by
  unfold mmapStorageViewWrap
  refine prog_peek.bind fun id => ?_
  split
  · exact prog_mmapNdArray.bind fun _ => .pure _
  · exact .fail _

theorem prog_head {T V : Type} [Toml T] [ReadChunk V] (hv : IsProg w (readChunk : Rd V)) :
    IsProg w (Embeddings.readHead : Rd (Option (Metadata T) × V)) := by
  unfold Embeddings.readHead
  exact prog_optMetadata.bind fun _ => hv.bind fun _ => .pure _

theorem prog_token (delim : UInt8) (lossy : Bool) : IsProg false (readToken delim lossy) := by unfold readToken; prog_tac
theorem prog_number (delim : UInt8) : IsProg false (readNumber delim) := by unfold readNumber; prog_tac

theorem prog_word2vecRaw {T F : Type} [Scalar F] [FloatBits F] (lossy : Bool) :
    IsProg false (Embeddings.readWord2vecRaw lossy : Rd (Embeddings T SimpleVocab (NdArray F) F)) := by
  have h : ∀ n, IsProg false (Embeddings.readWord2vecEntry n lossy : Rd (Str × List F)) := by
    intro n; unfold Embeddings.readWord2vecEntry; prog_tac
  unfold Embeddings.readWord2vecRaw
  prog_tac

theorem prog_word2vec {T F : Type} [Scalar F] [FloatBits F] (lossy : Bool) :
    IsProg false (Embeddings.readWord2vec lossy : Rd (Embeddings T SimpleVocab (NdArray F) F)) := by
  unfold Embeddings.readWord2vec
  exact (prog_word2vecRaw lossy).bind fun _ => .lift _

theorem prog_fastText {T F : Type} [Scalar F] [ScalarNat F] [FloatBits F] [ConfigToml T] (lossy : Bool) :
    IsProg false (Embeddings.readFastText lossy : Rd (Embeddings T FastTextSubwordVocab (NdArray F) F)) := by
  have h1 : IsProg false readLoss := by unfold readLoss; prog_tac
  have h2 : IsProg false readModel := by unfold readModel; prog_tac
  have h3 : IsProg false readFtConfig := by unfold readFtConfig; prog_tac
  have h4 : IsProg false (readFtWord lossy) := by unfold readFtWord; prog_tac
  have h5 : ∀ c, IsProg false (readFtVocab c lossy) := by
    intro c
    have : IsProg false readFtVocabHead := by unfold readFtVocabHead; prog_tac
    unfold readFtVocab
    prog_tac
  have h6 : IsProg false (readFtMatrix : Rd (NdArray F)) := by
    unfold readFtMatrix; prog_tac
  have h7 : IsProg false Embeddings.readFtMagic := by unfold Embeddings.readFtMagic; prog_tac
  have h8 : IsProg false Embeddings.readFtQuantized := by unfold Embeddings.readFtQuantized; prog_tac
  unfold Embeddings.readFastText
  prog_tac

end

/-! ## Claims -/

/-- A reader does not depend on the way in which the stream delivers its data: there is a program for it, and whichever program
it is, it ends on every stream that is not interrupted forever, always with the outcome on the bytes (value, position, error).
Programs that need `BufRead` need a buffer. -/
def Indifferent {α : Type} (plain : Bool) (p : Rd α) : Prop :=
  (∃ q : Prog α, (plain = true → q.Plain) ∧ q.Implements p) ∧
    ∀ q : Prog α, q.Implements p → ∀ {b : BufReader} {d : Bytes} {pos : Nat}, b.At d pos → b.inner.Fair → (0 < b.cap ∨ q.Plain) →
      (∃ r, Runs q b r) ∧ ∀ r, Runs q b r → SameOutcome d r (p d pos)

/-- A program computes this value; the position afterwards does not matter. -/
def Prog.Computes {α : Type} (q : Prog α) (p : Bytes → Nat → Res α) : Prop := ∀ d pos, (q.onBytes d pos).map (·.1) = p d pos

/-- `Indifferent`, for readers whose position afterwards does not matter. -/
def IndifferentValue {α : Type} (plain : Bool) (p : Bytes → Nat → Res α) : Prop :=
  (∃ q : Prog α, (plain = true → q.Plain) ∧ q.Computes p) ∧
    ∀ q : Prog α, q.Computes p → ∀ {b : BufReader} {d : Bytes} {pos : Nat}, b.At d pos → b.inner.Fair → (0 < b.cap ∨ q.Plain) →
      (∃ r, Runs q b r) ∧ ∀ r, Runs q b r → r.map (·.1) = p d pos

theorem IsProg.indifferent {α : Type} {w : Bool} {p : Rd α} (h : IsProg w p) : Indifferent w p := by
  refine ⟨h.ex, fun q hq b d pos hb hf hc => ?_⟩
  rw [← hq]
  exact c120_runs q hb hf hc

theorem IsProg.value {α : Type} {w : Bool} {p : Rd α} {v : Bytes → Nat → Res α} (h : IsProg w p)
    (hv : ∀ d pos, v d pos = (p d pos).map (·.1)) : IndifferentValue w v := by
  obtain ⟨q, h1, h2⟩ := h.ex
  refine ⟨⟨q, h1, fun d pos => by rw [hv, h2]⟩, fun q hq b d pos hb hf hc => ?_⟩
  obtain ⟨h3, h4⟩ := c120_runs q hb hf hc
  refine ⟨h3, fun r hr => ?_⟩
  have := h4 r hr
  rw [← hq]
  cases r with
  | ok x =>
    obtain ⟨a, b'⟩ := x
    obtain ⟨p', e, -⟩ := this
    rw [e]; rfl
  | err e => exact congrArg (Res.map _) (Eq.symm (this : _ = _))
  | panic => exact congrArg (Res.map _) (Eq.symm (this : _ = _))

/-- The lines up to the end of the data. -/
def allLines : Rd (List Bytes) := fun d pos => .ok (rawLines ((d.drop pos).length + 1) (d.drop pos), pos + (d.drop pos).length)

theorem prog_lines : IsProg false allLines := ⟨.lines .pure, (fun h => Bool.noConfusion h), fun _ _ => rfl⟩

theorem lift_value {α : Type} (r : Res α) (d : Bytes) (pos : Nat) : (Rd.lift r d pos).map (·.1) = r := by cases r <;> rfl

section
variable {T F : Type} [Scalar F] [FloatText F]
open Embeddings Mat

omit [Scalar F] in
theorem value_embeds (shape : Option (Nat × Nat)) (lossy : Bool) : ∃ p : Rd (Embeddings T SimpleVocab (NdArray F) F),
    IsProg false p ∧ ∀ d pos, readEmbeds shape lossy d pos = (p d pos).map (·.1) := by
  refine ⟨Rd.lift (allocTable shape) >>= fun _ => allLines >>= fun ls => Rd.lift (do
    let rows ← (ls.map (stripLast 10)).mapM (readTextLine (F := F) lossy)
    let shape ← tableShape shape rows.length (rows.map (·.2)).flatten.length
    let m ← fromShapeVec shape (rows.map (·.2)).flatten
    let vocab ← SimpleVocab.new (rows.map (·.1))
    newWithMaybeNorms none vocab (NdArray.mk m) none), ?_, fun d pos => ?_⟩
  · exact (IsProg.lift _).bind fun _ => prog_lines.bind fun _ => .lift _
  · unfold readEmbeds textLines
    simp only [Rd.bind_apply]
    cases allocTable shape with
    | err e => rfl
    | panic => rfl
    | ok u => exact (lift_value _ d (pos + (d.drop pos).length)).symm

omit [Scalar F] in
theorem value_dims (lossy : Bool) : ∃ p : Rd (Embeddings T SimpleVocab (NdArray F) F),
    IsProg false p ∧ ∀ d pos, readTextDimsRaw lossy d pos = (p d pos).map (·.1) := by
  refine ⟨readNumber 32 >>= fun n => readNumber 10 >>= fun e => Classical.choose (value_embeds (T := T) (F := F) (some (n, e)) lossy),
    ?_, fun d pos => ?_⟩
  · exact (prog_number _).bind fun n => (prog_number _).bind fun e => (Classical.choose_spec (value_embeds (some (n, e)) lossy)).1
  · unfold readTextDimsRaw
    simp only [Rd.bind_apply]
    cases readNumber 32 d pos with
    | err e => rfl
    | panic => rfl
    | ok x =>
      simp only [Res.ok_bind]
      cases readNumber 10 d x.2 with
      | err e => rfl
      | panic => rfl
      | ok y => exact (Classical.choose_spec (value_embeds (some (x.1, y.1)) lossy)).2 d y.2

omit [Scalar F] in
theorem value_then {α β : Type} {v : Bytes → Nat → Res α} (h : ∃ p : Rd α, IsProg false p ∧ ∀ d pos, v d pos = (p d pos).map (·.1))
    (f : α → Res β) : ∃ p : Rd β, IsProg false p ∧ ∀ d pos, (v d pos >>= f) = (p d pos).map (·.1) := by
  obtain ⟨p, h1, h2⟩ := h
  refine ⟨p >>= fun a => Rd.lift (f a), h1.bind fun _ => .lift _, fun d pos => ?_⟩
  rw [h2, Rd.bind_apply]
  cases p d pos with
  | ok x => exact (lift_value _ d x.2).symm
  | err e => rfl
  | panic => rfl

omit [Scalar F] in
theorem value_floret : ∃ p : Rd (Embeddings T FloretSubwordVocab (NdArray F) F),
    IsProg false p ∧ ∀ d pos, Embeddings.readFloret d pos = (p d pos).map (·.1) := by
  have hh : IsProg false readFloretHead := by
    unfold readFloretHead
    repeat' (first | apply prog_number | apply prog_token | exact IsProg.pure _ | apply IsProg.bind | (intro _))
  refine ⟨readFloretHead >>= fun h => Rd.lift (do
      checkFloretHead h
      Res.assert (4 * (h.nBuckets * h.embedLen) ≤ isizeMax)) >>= fun _ => allLines >>= fun ls => Rd.lift (do
    let rows ← (ls.map fun l => if l.getLast? = some 10 then stripLast 13 l.dropLast else l).mapM (readFloretLine (F := F) h.embedLen)
    let m ← fromShapeVec (h.nBuckets, h.embedLen) rows.flatten
    let indexer ← FloretIndexer.new h.nBuckets h.nHashes (UInt32.ofNat h.seed)
    let vocab ← SubwordVocab.newWithBoundaries [] h.minN h.maxN indexer h.bow h.eow
    newWithMaybeNorms none vocab (NdArray.mk m) none), ?_, fun d pos => ?_⟩
  · exact hh.bind fun _ => (IsProg.lift _).bind fun _ => prog_lines.bind fun _ => .lift _
  · unfold Embeddings.readFloret bufLines
    simp only [Rd.bind_apply]
    cases readFloretHead d pos with
    | err e => rfl
    | panic => rfl
    | ok x =>
      obtain ⟨h, p⟩ := x
      simp only [Res.ok_bind]
      cases checkFloretHead h with
      | err e => rfl
      | panic => rfl
      | ok u =>
        simp only [Res.ok_bind]
        cases Res.assert (4 * (h.nBuckets * h.embedLen) ≤ isizeMax) with
        | err e => rfl
        | panic => rfl
        | ok u => exact (lift_value _ d (p + (d.drop p).length)).symm

end

/-! ### What is kept on the way -/

theorem Kept.refl (b : BufReader) : Kept b b := ⟨rfl, rfl⟩

theorem source_kept (s : Source) (n : Nat) : (s.read n).2.script = s.script := by
  unfold Source.read
  cases s.script s.time <;> rfl

theorem fillBuf_kept (b : BufReader) : Kept b b.fillBuf.2 := by
  unfold BufReader.fillBuf
  split
  · have := source_kept b.inner b.cap
    cases hr : b.inner.read b.cap with
    | mk r s => rw [hr] at this; cases r <;> exact ⟨rfl, this⟩
  · exact .refl b

theorem read_kept (b : BufReader) (n : Nat) : Kept b (b.read n).2 := by
  unfold BufReader.read
  split
  · exact ⟨rfl, source_kept b.inner n⟩
  · have := fillBuf_kept b
    cases hf : b.fillBuf with
    | mk r b' => rw [hf] at this; cases r <;> exact this

theorem read_kept' {b b' : BufReader} {n : Nat} {r : Option Bytes} (h : b.read n = (r, b')) : Kept b b' := by
  have := read_kept b n
  rw [h] at this
  exact this

theorem fillBuf_kept' {b b' : BufReader} {r : Option Bytes} (h : b.fillBuf = (r, b')) : Kept b b' := by
  have := fillBuf_kept b
  rw [h] at this
  exact this

theorem defaultReadExact_kept {b b' : BufReader} {n : Nat} {r : Option Bytes} (h : DefaultReadExact b n r b') : Kept b b' := by
  induction h with
  | done b => exact .refl b
  | eof _ hr => exact read_kept' hr
  | more _ _ hr _ ih => exact (read_kept' hr).trans ih
  | interrupted _ hr _ ih => exact (read_kept' hr).trans ih

theorem readExact_kept {b b' : BufReader} {n : Nat} {r : Option Bytes} (h : ReadExact b n r b') : Kept b b' := by
  cases h with
  | buffered _ => exact ⟨rfl, rfl⟩
  | loop _ h => exact defaultReadExact_kept h

theorem readUntil_kept {delim : UInt8} {b b' : BufReader} {bs : Bytes} (h : ReadUntil delim b bs b') : Kept b b' := by
  induction h with
  | interrupted hf _ ih => exact (fillBuf_kept' hf).trans ih
  | found hf _ _ => have := fillBuf_kept' hf; exact this
  | eof hf => exact fillBuf_kept' hf
  | more hf _ _ _ ih => exact (fillBuf_kept' hf).trans ih

theorem readLines_kept {b b' : BufReader} {ls : List Bytes} (h : ReadLines b ls b') : Kept b b' := by
  induction h with
  | done h => exact readUntil_kept h
  | line h _ _ ih => exact (readUntil_kept h).trans ih

theorem runs_kept {α : Type} {q : Prog α} {b : BufReader} {r : Res (α × BufReader)} (h : Runs q b r) :
    ∀ a b', r = .ok (a, b') → Kept b b' := by
  induction h with
  | pure => intro a b' e; cases e; exact .refl _
  | fail => intro a b' e; cases e
  | panic => intro a b' e; cases e
  | exact h _ ih => exact fun a b' e => (readExact_kept h).trans (ih a b' e)
  | exactEof h => intro a b' e; cases e
  | readUntil h _ ih => exact fun a b' e => (readUntil_kept h).trans (ih a b' e)
  | lines h _ ih => exact fun a b' e => (readLines_kept h).trans (ih a b' e)
  | position _ ih => exact ih
  | skip _ ih => exact ih
  | seek _ ih => exact ih
  | map _ _ ih => exact ih
  | mapFail _ => intro a b' e; cases e

/-! ### Claims -/

/-- C120. The chunks that are read without `BufRead`: header, metadata, vocabularies, norms. -/
theorem c120_chunks {T : Type} [Toml T] :
    Indifferent true Header.read ∧ Indifferent true (readMetadata : Rd (Metadata T)) ∧
      Indifferent true (readOptMetadata : Rd (Option (Metadata T))) ∧ Indifferent true SimpleVocab.read ∧
      Indifferent true (readChunk : Rd BucketSubwordVocab) ∧ Indifferent true (readChunk : Rd FastTextSubwordVocab) ∧
      Indifferent true (readChunk : Rd ExplicitSubwordVocab) ∧ Indifferent true (readChunk : Rd FloretSubwordVocab) ∧
      Indifferent true (readChunk : Rd VocabWrap) ∧ Indifferent true (readChunk : Rd (NdNorms F32)) :=
  ⟨prog_header.indifferent, prog_metadata.indifferent, prog_optMetadata.indifferent, prog_simple.indifferent,
    (prog_bucketed _).indifferent, (prog_bucketed _).indifferent, prog_explicit.indifferent, prog_floretChunk.indifferent,
    prog_vocabWrap.indifferent, prog_norms.indifferent⟩

/-- C120. The storages, in memory and mapped. -/
theorem c120_storages :
    Indifferent true (readChunk : Rd (NdArray F32)) ∧ Indifferent true mmapNdArray ∧
      Indifferent true (readChunk : Rd (QuantizedArray F32)) ∧ Indifferent true mmapQuantizedArray ∧
      Indifferent true (readChunk : Rd StorageWrap) ∧ Indifferent true mmapStorageWrap ∧
      Indifferent true (readChunk : Rd StorageViewWrap) ∧ Indifferent true mmapStorageViewWrap :=
  ⟨prog_ndArray.indifferent, prog_mmapNdArray.indifferent, prog_quantized.indifferent, prog_mmapQuantized.indifferent,
    prog_storageWrap.indifferent, prog_mmapStorageWrap.indifferent, prog_storageViewWrap.indifferent,
    prog_mmapStorageViewWrap.indifferent⟩

/-- C120. word2vec and fastText files. -/
theorem c120_binary {T F : Type} [Scalar F] [ScalarNat F] [FloatBits F] [ConfigToml T] (lossy : Bool) :
    Indifferent false (Embeddings.readWord2vecRaw lossy : Rd (Embeddings T SimpleVocab (NdArray F) F)) ∧
      Indifferent false (Embeddings.readWord2vec lossy : Rd (Embeddings T SimpleVocab (NdArray F) F)) ∧
      Indifferent false (Embeddings.readFastText lossy : Rd (Embeddings T FastTextSubwordVocab (NdArray F) F)) :=
  ⟨(prog_word2vecRaw lossy).indifferent, (prog_word2vec lossy).indifferent, (prog_fastText lossy).indifferent⟩

/-- C120. Text files, with and without dimensions, and floret files. -/
theorem c120_text {T F : Type} [Scalar F] [FloatText F] (lossy : Bool) :
    IndifferentValue false (Embeddings.readTextRaw (T := T) (F := F) lossy) ∧
      IndifferentValue false (Embeddings.readText (T := T) (F := F) lossy) ∧
      IndifferentValue false (Embeddings.readTextDimsRaw (T := T) (F := F) lossy) ∧
      IndifferentValue false (Embeddings.readTextDims (T := T) (F := F) lossy) ∧
      IndifferentValue false (Embeddings.readFloret (T := T) (F := F)) := by
  obtain ⟨p1, h1, e1⟩ := value_embeds (T := T) (F := F) none lossy
  obtain ⟨p2, h2, e2⟩ := value_then (value_embeds (T := T) (F := F) none lossy) Embeddings.normalizeRead
  obtain ⟨p3, h3, e3⟩ := value_dims (T := T) (F := F) lossy
  obtain ⟨p4, h4, e4⟩ := value_then (value_dims (T := T) (F := F) lossy) Embeddings.normalizeRead
  obtain ⟨p5, h5, e5⟩ := value_floret (T := T) (F := F)
  exact ⟨h1.value e1, h2.value e2, h3.value e3, h4.value e4, h5.value e5⟩

/-- C120. Finalfusion files: for every pair of programs, one for everything up to the storage and one for the norms. -/
theorem c120_finalfusion {T V S : Type} [Toml T] [ReadChunk V] (readStorage : Rd S)
    {q : Prog ((Option (Metadata T) × V) × S)} {qn : Prog (NdNorms F32)}
    (hq : q.Implements (do return (← (Embeddings.readHead : Rd (Option (Metadata T) × V)), ← readStorage)))
    (hn : qn.Implements (readChunk : Rd (NdNorms F32)))
    {b : BufReader} {d : Bytes} {pos : Nat} (hb : b.At d pos) (hf : b.inner.Fair) (hc : 0 < b.cap ∨ (q.Plain ∧ qn.Plain)) :
    (∃ r, RunsFile q qn (fun x n => (⟨x.1.1, x.2, x.1.2, n⟩ : Embeddings T V S F32)) b r) ∧
      ∀ r, RunsFile q qn (fun x n => (⟨x.1.1, x.2, x.1.2, n⟩ : Embeddings T V S F32)) b r →
        r = Embeddings.readWith readStorage d pos := by
  have e : q.onBytes d pos = _ := hq d pos
  simp only [Rd.bind_apply] at e
  obtain ⟨⟨r, hr⟩, hall⟩ := c120_runs q hb hf (hc.imp id And.left)
  constructor
  · cases r with
    | err x => exact ⟨_, .err hr⟩
    | panic => exact ⟨_, .panic hr⟩
    | ok x =>
      obtain ⟨a, b'⟩ := x
      obtain ⟨p, -, h1⟩ := hall _ hr
      have k := runs_kept hr a b' rfl
      obtain ⟨r', hr'⟩ := (c120_runs qn h1 (k.fair hf) (hc.imp (fun hc => by rw [k.1]; exact hc) And.right)).1
      exact ⟨_, .norms hr hr'⟩
  · intro r hr
    unfold Embeddings.readWith
    cases hr with
    | err h =>
      have := hall _ h
      change q.onBytes d pos = _ at this
      rw [e] at this
      cases h1 : Embeddings.readHead (T := T) (V := V) d pos with
      | err x => rw [h1] at this; cases this; rfl
      | panic => rw [h1] at this; cases this
      | ok x =>
        rw [h1] at this
        simp only [Res.ok_bind] at this ⊢
        cases h2 : readStorage d x.2 with
        | err y => rw [h2] at this; cases this; rfl
        | panic => rw [h2] at this; cases this
        | ok y => rw [h2] at this; cases this
    | panic h =>
      have := hall _ h
      change q.onBytes d pos = _ at this
      rw [e] at this
      cases h1 : Embeddings.readHead (T := T) (V := V) d pos with
      | err x => rw [h1] at this; cases this
      | panic => rfl
      | ok x =>
        rw [h1] at this
        simp only [Res.ok_bind] at this ⊢
        cases h2 : readStorage d x.2 with
        | err y => rw [h2] at this; cases this
        | panic => rfl
        | ok y => rw [h2] at this; cases this
    | @norms a b' r' h h' =>
      obtain ⟨p, e1, h1⟩ := hall _ h
      have k := runs_kept h a b' rfl
      have hno := (c120_runs qn h1 (k.fair hf) (hc.imp (fun hc => by rw [k.1]; exact hc) And.right)).2 _ h'
      rw [hn d p] at hno
      rw [e] at e1
      cases h2 : Embeddings.readHead (T := T) (V := V) d pos with
      | err x => rw [h2] at e1; cases e1
      | panic => rw [h2] at e1; cases e1
      | ok x =>
        rw [h2] at e1
        simp only [Res.ok_bind] at e1 ⊢
        cases h3 : readStorage d x.2 with
        | err y => rw [h3] at e1; cases e1
        | panic => rw [h3] at e1; cases e1
        | ok y =>
          rw [h3] at e1
          cases e1
          simp only [Res.ok_bind]
          cases r' with
          | err z => rw [show (readChunk : Rd (NdNorms F32)) d y.2 = .err z from hno]; rfl
          | panic => rw [show (readChunk : Rd (NdNorms F32)) d y.2 = .panic from hno]; rfl
          | ok z =>
            obtain ⟨n, b''⟩ := z
            obtain ⟨p', e3, -⟩ := hno
            rw [e3]
            rfl

/-- C120. There are such programs, for all the vocabularies and storages of `c120_chunks` and `c120_storages`. -/
theorem c120_programs {T V S : Type} [Toml T] [ReadChunk V] {readStorage : Rd S} (hv : Indifferent true (readChunk : Rd V))
    (hs : Indifferent true readStorage) :
    Indifferent true (do return (← (Embeddings.readHead : Rd (Option (Metadata T) × V)), ← readStorage)) :=
  ((prog_head (T := T) ⟨hv.1⟩).bind (w := true) fun a => (IsProg.bind ⟨hs.1⟩ fun s => .pure (a, s))).indifferent

/-- C120. A stream that is interrupted forever keeps a reader busy forever: there is no outcome. -/
theorem c120_forever {α : Type} {n : Nat} {k : Bytes → Prog α} {b : BufReader} (hn : b.buf.length < n)
    (hi : ∀ t, b.inner.time ≤ t → b.inner.script t = none) (hb : b.buf = []) (r : Res (α × BufReader)) : ¬ Runs (.exact n k) b r := by
  have key : ∀ {b b' : BufReader} {n : Nat} {r : Option Bytes}, DefaultReadExact b n r b' → n ≠ 0 → b.buf = [] →
      (∀ t, b.inner.time ≤ t → b.inner.script t = none) → False := by
    intro b b' n r h
    have hr : ∀ {b : BufReader} {n : Nat}, b.buf = [] → b.inner.script b.inner.time = none →
        b.read n = (none, { b with inner := { b.inner with time := b.inner.time + 1 } }) := by
      intro b n h0 h1
      have h2 : ∀ m, b.inner.read m = (none, { b.inner with time := b.inner.time + 1 }) := by
        intro m; unfold Source.read; rw [h1]
      unfold BufReader.read BufReader.fillBuf
      rw [if_pos h0, h2, h2]
      split <;> rfl
    induction h with
    | done b => intro h; exact absurd rfl h
    | eof _ h => intro _ h0 hi; rw [hr h0 (hi _ (Nat.le_refl _))] at h; cases h
    | more _ _ h _ _ => intro _ h0 hi; rw [hr h0 (hi _ (Nat.le_refl _))] at h; cases h
    | interrupted hn h _ ih =>
      intro _ h0 hi
      rw [hr h0 (hi _ (Nat.le_refl _))] at h
      cases h
      exact ih hn h0 fun t ht => hi t (by simp only at ht; omega)
  intro h
  cases h with
  | exact h _ =>
    cases h with
    | buffered h' => omega
    | loop _ h => exact key h (by omega) hb hi
  | exactEof h =>
    cases h with
    | loop _ h => exact key h (by omega) hb hi

/-! ### Examples -/

/-- A stream that delivers one, two or three bytes at a time and is interrupted before each. -/
def halting (d : Bytes) : Source := ⟨d, 0, fun t => if t % 2 = 0 then none else some (t % 3), 0⟩

theorem halting_fair (d : Bytes) : (halting d).Fair := by
  intro t
  by_cases h : t % 2 = 0
  · exact ⟨1, by simp only [halting]; rw [if_neg (by omega)]; simp⟩
  · exact ⟨0, by simp only [halting, Nat.add_zero]; rw [if_neg h]; simp⟩

theorem halting_at (d : Bytes) (cap : Nat) : (⟨halting d, [], cap⟩ : BufReader).At d 0 := ⟨rfl, rfl, by simp⟩

/-- Simple vocabulary and array. -/
example := (@c120_programs _ SimpleVocab (NdArray F32) exampleToml _ (readChunk : Rd (NdArray F32))
  (@c120_chunks _ exampleToml).2.2.2.1 c120_storages.1).2

/-- The example of C67 from such a stream, without a buffer (capacity 0) or with one of any size. -/
example (cap : Nat) : ∃ (q : Prog ((Option (Metadata Str) × SimpleVocab) × NdArray F32)) (qn : Prog (NdNorms F32)), q.Plain ∧ qn.Plain ∧
    (∃ r, RunsFile q qn (fun x n => (⟨x.1.1, x.2, x.1.2, n⟩ : Embeddings Str SimpleVocab (NdArray F32) F32))
      ⟨halting exampleFile, [], cap⟩ r) ∧
    ∀ r, RunsFile q qn (fun x n => (⟨x.1.1, x.2, x.1.2, n⟩ : Embeddings Str SimpleVocab (NdArray F32) F32))
      ⟨halting exampleFile, [], cap⟩ r →
      r = .ok ⟨none, ⟨⟨1, [[0x3f800000], [0x40000000]]⟩⟩, ⟨createIndices [['a'], ['b', 'c']], [['a'], ['b', 'c']]⟩, none⟩ := by
  obtain ⟨q, h1, h2⟩ := (@c120_programs _ SimpleVocab (NdArray F32) exampleToml _ (readChunk : Rd (NdArray F32))
    (@c120_chunks _ exampleToml).2.2.2.1 c120_storages.1).1
  obtain ⟨qn, h3, h4⟩ := (@c120_chunks _ exampleToml).2.2.2.2.2.2.2.2.2.1
  refine ⟨q, qn, h1 rfl, h3 rfl, ?_⟩
  rw [← exampleFile_read]
  exact @c120_finalfusion _ _ _ exampleToml _ _ q qn h2 h4 _ _ _ (halting_at _ cap) (halting_fair _) (.inr ⟨h1 rfl, h3 rfl⟩)

attribute [local instance] exampleScalar exampleFloatText in
/-- A text file of two lines from such a stream with a buffer of three bytes. -/
example : ∃ q : Prog (Embeddings Unit SimpleVocab (NdArray F32) F32), (∃ r, Runs q ⟨halting (ascii "a 5 6\nb 7 8\n"), [], 3⟩ r) ∧
    ∀ r, Runs q ⟨halting (ascii "a 5 6\nb 7 8\n"), [], 3⟩ r →
      r.map (fun x => x.1.vocab.words) = .ok [['a'], ['b']] := by
  obtain ⟨⟨q, -, h1⟩, h2⟩ := (c120_text (T := Unit) (F := F32) false).1
  have h := h2 q h1 (halting_at (ascii "a 5 6\nb 7 8\n") 3) (halting_fair _) (.inl (by decide))
  refine ⟨q, h.1, fun r hr => ?_⟩
  have h3 : (r.map (·.1)).map (fun e => e.vocab.words) = _ := congrArg _ (h.2 r hr)
  have h4 : (Embeddings.readTextRaw (T := Unit) (F := F32) false (ascii "a 5 6\nb 7 8\n") 0).map (fun e => e.vocab.words) =
    .ok [['a'], ['b']] := by decide +kernel
  rw [h4] at h3
  cases r <;> exact h3

/-- No outcome from a stream that is interrupted forever. -/
example (k : Bytes → Prog Unit) (r : Res (Unit × BufReader)) : ¬ Runs (.exact 4 k) ⟨⟨[1, 2, 3, 4], 0, fun _ => none, 0⟩, [], 0⟩ r :=
  c120_forever (by decide) (fun _ _ => rfl) rfl r

end Pieces

end FF
