import Verif.Model.Sinks
import Verif.Props.MessagesWrite
import Verif.Props.Exact

/-!
# C121: success means that the sink has everything
-/

namespace FF

namespace Sinks

open EW (Erases)
open Rd Layout

/-! ## Specification -/

/-- What was handed to the `BufWriter`, at the sink or in the buffer. -/
def BufWriter.sent (w : BufWriter) : Bytes := w.inner.got ++ w.buf

/-- A sink without a buffer. -/
def Direct (b : BufWriter) : Prop := b.buf = [] ∧ b.cap = 0

/-- The sink is never interrupted for ever. -/
def Sink.Fair (s : Sink) : Prop := ∀ t, ∃ t', t ≤ t' ∧ s.script t' ≠ .interrupted

/-- The sink does not fail. -/
def Sink.Works (s : Sink) : Prop := ∀ t, s.script t ≠ .zero ∧ s.script t ≠ .fail

/-- `w` writes what `v` writes to a sink without a buffer. The sink gets the beginning of the file, the outcome is as if the sink
had accepted this number of bytes at once and had failed then, and it is a success only if the sink has everything. A sink that is
not interrupted for ever leads to exactly one outcome, and if it does not fail either, then this is the outcome of `v` itself. -/
def Arrives (w : EW) (v : W) : Prop :=
  (∀ b r b', Direct b → Runs w b r b' →
    Direct b' ∧ (∃ cap, b'.inner.got = b.inner.got ++ v.bytes.take cap ∧ r.kinds = (v.run cap).2) ∧
    (r = .ok () → b'.inner.got = b.inner.got ++ v.bytes)) ∧
  (∀ b, Direct b → b.inner.Fair → ∃ r b', Runs w b r b' ∧ (∀ r' b'', Runs w b r' b'' → r' = r ∧ b'' = b') ∧
    (b.inner.Works → r.kinds = v.status ∧ b'.inner.got = b.inner.got ++ v.bytes))

/-- `w` writes what `v` writes through a `BufWriter`. If this succeeds, then at most one buffer of data is missing at the sink, and
flushing the buffer successfully completes the file. -/
def ArrivesOnFlush (w : EW) (v : W) : Prop :=
  ∀ b b', b.buf = [] → Runs w b (.ok ()) b' →
    (∃ lost, b'.inner.got ++ lost = b.inner.got ++ v.bytes ∧ lost.length ≤ b.cap) ∧
    ∀ b'', Flush b' true b'' → b''.inner.got = b.inner.got ++ v.bytes

/-! ## `write_all` -/

theorem WriteAll.got {s s' : Sink} {b rest : Bytes} (h : WriteAll s b rest s') :
    s'.got ++ rest = s.got ++ b ∧ rest.length ≤ b.length ∧ s.got <+: s'.got ∧ s'.script = s.script := by
  induction h with
  | done s => exact ⟨rfl, Nat.le_refl _, List.prefix_rfl, rfl⟩
  | interrupted _ _ _ ih => exact ih
  | zero _ _ => exact ⟨rfl, Nat.le_refl _, List.prefix_rfl, rfl⟩
  | fail _ _ => exact ⟨rfl, Nat.le_refl _, List.prefix_rfl, rfl⟩
  | @take s s' b rest k _ _ _ ih =>
    obtain ⟨h1, h2, h3, h4⟩ := ih
    refine ⟨?_, ?_, ?_, h4⟩
    · rw [h1]; simp only [Sink.accept, List.append_assoc, List.take_append_drop]
    · rw [List.length_drop] at h2; omega
    · exact (List.prefix_append _ _).trans h3

theorem WriteAll.split {s s' : Sink} {b rest : Bytes} (h : WriteAll s b rest s') :
    ∃ x, b = x ++ rest ∧ s'.got = s.got ++ x := by
  obtain ⟨h1, _, ⟨x, h3⟩, _⟩ := h.got
  refine ⟨x, ?_, h3.symm⟩
  rw [← h3, List.append_assoc] at h1
  exact (List.append_cancel_left h1).symm

theorem WriteAll.nil {s s' : Sink} {rest : Bytes} (h : WriteAll s [] rest s') : rest = [] ∧ s' = s := by
  cases h <;> simp_all

theorem WriteAll.unique {s s1 s2 : Sink} {b r1 r2 : Bytes} (h1 : WriteAll s b r1 s1) (h2 : WriteAll s b r2 s2) :
    r1 = r2 ∧ s1 = s2 := by
  induction h1 generalizing r2 s2 with
  | done s => obtain ⟨rfl, rfl⟩ := h2.nil; exact ⟨rfl, rfl⟩
  | interrupted hb hs _ ih =>
    cases h2 with
    | interrupted _ _ h' => exact ih h'
    | done => exact absurd rfl hb
    | take _ hs' _ => rw [hs] at hs'; cases hs'
    | zero _ hs' => rw [hs] at hs'; cases hs'
    | fail _ hs' => rw [hs] at hs'; cases hs'
  | zero hb hs => cases h2 <;> simp_all
  | fail hb hs => cases h2 <;> simp_all
  | take hb hs _ ih =>
    cases h2 with
    | done => exact absurd rfl hb
    | take _ hs' h' =>
      rw [hs] at hs'; injection hs' with hk; subst hk
      exact ih h'
    | interrupted _ hs' _ => rw [hs] at hs'; cases hs'
    | zero _ hs' => rw [hs] at hs'; cases hs'
    | fail _ hs' => rw [hs] at hs'; cases hs'

theorem WriteAll.exists {s : Sink} (hf : s.Fair) (b : Bytes) : ∃ rest s', WriteAll s b rest s' := by
  generalize hn : b.length = n
  induction n using Nat.strongRecOn generalizing b s with
  | _ n ih =>
    by_cases hb : b = []
    · subst hb; exact ⟨_, _, .done s⟩
    · obtain ⟨t, ht, hne⟩ := hf s.time
      obtain ⟨d, rfl⟩ := Nat.exists_eq_add_of_le ht
      clear ht
      induction d generalizing s with
      | zero =>
        cases hs : s.script s.time with
        | interrupted => exact absurd hs hne
        | zero => exact ⟨_, _, .zero hb hs⟩
        | fail => exact ⟨_, _, .fail hb hs⟩
        | take k =>
          have hl : (b.drop (k + 1)).length < n := by
            have := List.length_pos_iff.mpr hb
            rw [List.length_drop]; omega
          obtain ⟨rest, s', h⟩ := ih _ hl (s := s.accept (b.take (k + 1))) hf _ rfl
          exact ⟨rest, s', .take hb hs h⟩
      | succ d ihd =>
        cases hs : s.script s.time with
        | interrupted =>
          obtain ⟨rest, s', h⟩ := ihd (s := s.next) hf (by
            show s.script (s.time + 1 + d) ≠ _
            rw [show s.time + 1 + d = s.time + (d + 1) by omega]; exact hne)
          exact ⟨rest, s', .interrupted hb hs h⟩
        | zero => exact ⟨_, _, .zero hb hs⟩
        | fail => exact ⟨_, _, .fail hb hs⟩
        | take k =>
          have hl : (b.drop (k + 1)).length < n := by
            have := List.length_pos_iff.mpr hb
            rw [List.length_drop]; omega
          obtain ⟨rest, s', h⟩ := ih _ hl (s := s.accept (b.take (k + 1))) hf _ rfl
          exact ⟨rest, s', .take hb hs h⟩

theorem WriteAll.works {s s' : Sink} {b rest : Bytes} (h : WriteAll s b rest s') (hw : s.Works) : rest = [] := by
  induction h with
  | done => rfl
  | interrupted _ _ _ ih => exact ih hw
  | zero _ hs => exact absurd hs (hw _).1
  | fail _ hs => exact absurd hs (hw _).2
  | take _ _ _ ih => exact ih hw

/-! ## `BufWriter` -/

theorem Flush.sent {w w' : BufWriter} {ok : Bool} (h : Flush w ok w') :
    w'.sent = w.sent ∧ (ok = true ↔ w'.buf = []) ∧ w'.cap = w.cap ∧ w'.buf.length ≤ w.buf.length ∧
      w.inner.got <+: w'.inner.got ∧ w'.inner.script = w.inner.script := by
  obtain ⟨h⟩ := h
  obtain ⟨h1, h2, h3, h4⟩ := h.got
  exact ⟨h1, List.isEmpty_iff, rfl, h2, h3, h4⟩

theorem Flush.unique {w w1 w2 : BufWriter} {o1 o2 : Bool} (h1 : Flush w o1 w1) (h2 : Flush w o2 w2) : o1 = o2 ∧ w1 = w2 := by
  obtain ⟨h1⟩ := h1
  obtain ⟨h2⟩ := h2
  obtain ⟨rfl, rfl⟩ := h1.unique h2
  exact ⟨rfl, rfl⟩

theorem Flush.exists {w : BufWriter} (hf : w.inner.Fair) : ∃ ok w', Flush w ok w' := by
  obtain ⟨rest, s, h⟩ := WriteAll.exists hf w.buf
  exact ⟨_, _, ⟨h⟩⟩

theorem Flush.works {w w' : BufWriter} {ok : Bool} (h : Flush w ok w') (hw : w.inner.Works) : ok = true := by
  obtain ⟨h⟩ := h
  exact List.isEmpty_iff.mpr (h.works hw)

theorem Flush.direct {w w' : BufWriter} {ok : Bool} (h : Flush w ok w') (hb : w.buf = []) : ok = true ∧ w' = w := by
  obtain ⟨h⟩ := h
  rw [hb] at h
  obtain ⟨rfl, rfl⟩ := h.nil
  exact ⟨rfl, by rw [← hb]⟩

theorem Put.sent {w w' : BufWriter} {b : Bytes} {ok : Bool} (h : Put w b ok w') :
    ∃ x y, b = x ++ y ∧ w'.sent = w.sent ++ x ∧ (ok = true ↔ y = []) ∧ w'.cap = w.cap ∧
      (w.buf.length ≤ w.cap → w'.buf.length ≤ w.cap) ∧ w.inner.got <+: w'.inner.got ∧ w'.inner.script = w.inner.script := by
  cases h with
  | fits hl =>
    refine ⟨b, [], (List.append_nil b).symm, ?_, ⟨fun _ => rfl, fun _ => rfl⟩, rfl, fun _ => ?_, List.prefix_rfl, rfl⟩
    · simp only [BufWriter.sent, List.append_assoc]
    · rw [List.length_append]; omega
  | flushFails hl hf =>
    obtain ⟨h1, h2, h3, h4, h5, h6⟩ := hf.sent
    refine ⟨[], b, rfl, by rw [h1, List.append_nil], ⟨fun h => Bool.noConfusion h, fun h => ?_⟩, h3, fun h => by omega, h5, h6⟩
    rw [h] at hl; simp at hl
  | flushed hl hf hc =>
    obtain ⟨h1, h2, h3, h4, h5, h6⟩ := hf.sent
    refine ⟨b, [], (List.append_nil b).symm, ?_, ⟨fun _ => rfl, fun _ => rfl⟩, h3, fun _ => ?_, h5, h6⟩
    · rw [← h1]; simp only [BufWriter.sent, List.append_assoc]
    · show (_ ++ b).length ≤ _
      rw [h2.mp rfl, List.nil_append]; omega
  | @flushedDirect w' rest s hl hf hc ha =>
    obtain ⟨h1, h2, h3, h4, h5, h6⟩ := hf.sent
    obtain ⟨x, hx, hg⟩ := ha.split
    refine ⟨x, rest, hx, ?_, List.isEmpty_iff, h3, fun h => ?_, h5.trans ha.got.2.2.1, ha.got.2.2.2.trans h6⟩
    · rw [← h1]
      simp only [BufWriter.sent, h2.mp rfl, hg, List.append_nil]
    · show w'.buf.length ≤ _; omega
  | full hl hc =>
    refine ⟨b, [], (List.append_nil b).symm, ?_, ⟨fun _ => rfl, fun _ => rfl⟩, rfl, fun _ => ?_, List.prefix_rfl, rfl⟩
    · simp only [BufWriter.sent, List.append_assoc]
    · rw [List.length_append]; omega
  | @direct rest s hl hc ha =>
    obtain ⟨x, hx, hg⟩ := ha.split
    refine ⟨x, rest, hx, ?_, List.isEmpty_iff, rfl, fun h => h, ha.got.2.2.1, ha.got.2.2.2⟩
    simp only [BufWriter.sent, hg]
    by_cases hb : w.buf = []
    · simp [hb]
    · have : b.length = 0 := by
        have := List.length_pos_iff.mpr hb
        omega
      have hxl : x.length = 0 := by rw [hx, List.length_append] at this; omega
      rw [List.eq_nil_of_length_eq_zero hxl]; simp

theorem Put.unique {w w1 w2 : BufWriter} {b : Bytes} {o1 o2 : Bool} (h1 : Put w b o1 w1) (h2 : Put w b o2 w2) :
    o1 = o2 ∧ w1 = w2 := by
  cases h1 with
  | fits h =>
    cases h2 with
    | fits => exact ⟨rfl, rfl⟩
    | flushFails | flushed | flushedDirect | full | direct => omega
  | full h hc =>
    cases h2 with
    | full => exact ⟨rfl, rfl⟩
    | flushFails | flushed | flushedDirect | fits | direct => omega
  | direct h hc ha =>
    cases h2 with
    | direct _ _ ha' => obtain ⟨rfl, rfl⟩ := ha.unique ha'; exact ⟨rfl, rfl⟩
    | flushFails | flushed | flushedDirect | fits | full => omega
  | flushFails h hf =>
    cases h2 with
    | flushFails _ hf' => exact ⟨rfl, (hf.unique hf').2⟩
    | flushed _ hf' _ => exact Bool.noConfusion (hf.unique hf').1
    | flushedDirect _ hf' _ _ => exact Bool.noConfusion (hf.unique hf').1
    | fits | full | direct => omega
  | flushed h hf hc =>
    cases h2 with
    | flushFails _ hf' => exact Bool.noConfusion (hf.unique hf').1
    | flushed _ hf' _ => obtain ⟨_, rfl⟩ := hf.unique hf'; exact ⟨rfl, rfl⟩
    | flushedDirect | fits | full | direct => omega
  | flushedDirect h hf hc ha =>
    cases h2 with
    | flushFails _ hf' => exact Bool.noConfusion (hf.unique hf').1
    | flushedDirect _ hf' _ ha' =>
      obtain ⟨_, rfl⟩ := hf.unique hf'
      obtain ⟨rfl, rfl⟩ := ha.unique ha'
      exact ⟨rfl, rfl⟩
    | flushed | fits | full | direct => omega

theorem Put.exists {w : BufWriter} (hf : w.inner.Fair) (b : Bytes) : ∃ ok w', Put w b ok w' := by
  rcases Nat.lt_trichotomy b.length (w.cap - w.buf.length) with h | h | h
  · exact ⟨_, _, .fits h⟩
  · by_cases hc : b.length < w.cap
    · exact ⟨_, _, .full h hc⟩
    · obtain ⟨rest, s, ha⟩ := WriteAll.exists hf b
      exact ⟨_, _, .direct h (by omega) ha⟩
  · obtain ⟨ok, w', hfl⟩ := Flush.exists hf
    cases ok with
    | false => exact ⟨_, _, .flushFails h hfl⟩
    | true =>
      by_cases hc : b.length < w.cap
      · exact ⟨_, _, .flushed h hfl hc⟩
      · have hf' : w'.inner.Fair := by unfold Sink.Fair; rw [hfl.sent.2.2.2.2.2]; exact hf
        obtain ⟨rest, s, ha⟩ := WriteAll.exists hf' b
        exact ⟨_, _, .flushedDirect h hfl (by omega) ha⟩

theorem Put.works {w w' : BufWriter} {b : Bytes} {ok : Bool} (h : Put w b ok w') (hw : w.inner.Works) : ok = true := by
  cases h with
  | fits | flushed | full => rfl
  | flushFails _ hf => exact hf.works hw
  | flushedDirect _ hf _ ha =>
    refine List.isEmpty_iff.mpr (ha.works ?_)
    unfold Sink.Works; rw [hf.sent.2.2.2.2.2]; exact hw
  | direct _ _ ha => exact List.isEmpty_iff.mpr (ha.works hw)

/-! ## Steps -/

theorem Steps.run {b b' : BufWriter} {ss : List Step} {e : Option Error} (h : Steps b ss e b') :
    ∃ cap tells, b'.sent = b.sent ++ EW.accepted cap tells ss ∧ e = EW.fails cap tells ss := by
  induction h with
  | done w => exact ⟨0, 0, (List.append_nil _).symm, rfl⟩
  | @put w w' w'' blk e ss r hp _ ih =>
    obtain ⟨cap, tells, h1, h2⟩ := ih
    obtain ⟨x, y, hx, hs, hy, _⟩ := hp.sent
    rw [hy.mp rfl, List.append_nil] at hx
    subst hx
    refine ⟨cap + blk.length, tells, ?_, ?_⟩
    · simp only [EW.accepted, if_pos (Nat.le_add_left _ _), Nat.add_sub_cancel]
      rw [h1, hs, List.append_assoc]
    · simp only [EW.fails, if_pos (Nat.le_add_left _ _), Nat.add_sub_cancel]
      exact h2
  | @putFails w w' blk e ss hp =>
    obtain ⟨x, y, hx, hs, hy, _⟩ := hp.sent
    have hne : y ≠ [] := fun h => Bool.noConfusion (hy.mpr h)
    have hl : ¬ blk.length ≤ x.length := by
      have := List.length_pos_iff.mpr hne
      rw [hx, List.length_append]; omega
    refine ⟨x.length, 0, ?_, ?_⟩
    · simp only [EW.accepted, if_neg hl]
      rw [hs, hx, List.take_left]
    · simp only [EW.fails, if_neg hl]
  | tell hf _ ih =>
    obtain ⟨cap, tells, h1, h2⟩ := ih
    exact ⟨cap, tells + 1, by rw [h1, hf.sent.1]; rfl, h2⟩
  | tellFails hf => exact ⟨0, 0, by rw [hf.sent.1]; exact (List.append_nil _).symm, rfl⟩

theorem Direct.put {w w' : BufWriter} {b : Bytes} {ok : Bool} (hd : Direct w) (h : Put w b ok w') : Direct w' := by
  obtain ⟨x, y, _, _, _, hc, hl, _⟩ := h.sent
  have hz : w.cap = 0 := hd.2
  have := hl (by rw [hd.1]; exact Nat.zero_le _)
  exact ⟨List.eq_nil_of_length_eq_zero (by omega), by rw [hc, hz]⟩

theorem Steps.direct {b b' : BufWriter} {ss : List Step} {e : Option Error} (h : Steps b ss e b') (hd : Direct b) :
    Direct b' ∧ ∃ cap, ∀ tells, EW.nTells ss ≤ tells →
      b'.inner.got = b.inner.got ++ EW.accepted cap tells ss ∧ e = EW.fails cap tells ss := by
  have hsent : ∀ {w : BufWriter}, Direct w → w.sent = w.inner.got := fun h => by
    unfold BufWriter.sent; rw [h.1, List.append_nil]
  induction h with
  | done w => exact ⟨hd, 0, fun _ _ => ⟨(List.append_nil _).symm, rfl⟩⟩
  | @put w w' w'' blk e ss r hp _ ih =>
    have hd' := hd.put hp
    obtain ⟨hd'', cap, h⟩ := ih hd'
    obtain ⟨x, y, hx, hs, hy, _⟩ := hp.sent
    rw [hy.mp rfl, List.append_nil] at hx
    subst hx
    rw [hsent hd, hsent hd'] at hs
    refine ⟨hd'', cap + blk.length, fun tells ht => ?_⟩
    obtain ⟨h1, h2⟩ := h tells ht
    simp only [EW.accepted, EW.fails, if_pos (Nat.le_add_left _ _), Nat.add_sub_cancel]
    exact ⟨by rw [h1, hs, List.append_assoc], h2⟩
  | @putFails w w' blk e ss hp =>
    have hd' := hd.put hp
    obtain ⟨x, y, hx, hs, hy, _⟩ := hp.sent
    have hne : y ≠ [] := fun h => Bool.noConfusion (hy.mpr h)
    have hl : ¬ blk.length ≤ x.length := by
      have := List.length_pos_iff.mpr hne
      rw [hx, List.length_append]; omega
    rw [hsent hd, hsent hd'] at hs
    refine ⟨hd', x.length, fun tells ht => ?_⟩
    simp only [EW.accepted, EW.fails, if_neg hl]
    exact ⟨by rw [hs, hx, List.take_left], trivial⟩
  | tell hf _ ih =>
    obtain ⟨_, rfl⟩ := hf.direct hd.1
    obtain ⟨hd', cap, h⟩ := ih hd
    refine ⟨hd', cap, fun tells ht => ?_⟩
    cases tells with
    | zero => simp [EW.nTells] at ht
    | succ t => exact h t (by simpa [EW.nTells] using ht)
  | tellFails hf => exact Bool.noConfusion (hf.direct hd.1).1

theorem Steps.unique {b b1 b2 : BufWriter} {ss : List Step} {e1 e2 : Option Error} (h1 : Steps b ss e1 b1) (h2 : Steps b ss e2 b2) :
    e1 = e2 ∧ b1 = b2 := by
  induction h1 generalizing e2 b2 with
  | done => cases h2; exact ⟨rfl, rfl⟩
  | put hp _ ih =>
    cases h2 with
    | put hp' h' => obtain ⟨_, rfl⟩ := hp.unique hp'; exact ih h'
    | putFails hp' => exact Bool.noConfusion (hp.unique hp').1
  | putFails hp =>
    cases h2 with
    | put hp' h' => exact Bool.noConfusion (hp.unique hp').1
    | putFails hp' => exact ⟨rfl, (hp.unique hp').2⟩
  | tell hf _ ih =>
    cases h2 with
    | tell hf' h' => obtain ⟨_, rfl⟩ := hf.unique hf'; exact ih h'
    | tellFails hf' => exact Bool.noConfusion (hf.unique hf').1
  | tellFails hf =>
    cases h2 with
    | tell hf' h' => exact Bool.noConfusion (hf.unique hf').1
    | tellFails hf' => exact ⟨rfl, (hf.unique hf').2⟩

theorem Steps.exists {b : BufWriter} (hf : b.inner.Fair) (ss : List Step) : ∃ e b', Steps b ss e b' := by
  induction ss generalizing b with
  | nil => exact ⟨_, _, .done b⟩
  | cons s ss ih =>
    cases s with
    | put blk e =>
      obtain ⟨ok, w', hp⟩ := Put.exists hf blk
      cases ok with
      | false => exact ⟨_, _, .putFails hp⟩
      | true =>
        obtain ⟨x, y, _, _, _, _, _, _, hs⟩ := hp.sent
        obtain ⟨e', b', h⟩ := ih (b := w') (by unfold Sink.Fair; rw [hs]; exact hf)
        exact ⟨_, _, .put hp h⟩
    | tell e =>
      obtain ⟨ok, w', hfl⟩ := Flush.exists hf
      cases ok with
      | false => exact ⟨_, _, .tellFails hfl⟩
      | true =>
        obtain ⟨e', b', h⟩ := ih (b := w') (by unfold Sink.Fair; rw [hfl.sent.2.2.2.2.2]; exact hf)
        exact ⟨_, _, .tell hfl h⟩

theorem Steps.works {b b' : BufWriter} {ss : List Step} {e : Option Error} (h : Steps b ss e b') (hw : b.inner.Works) : e = none := by
  induction h with
  | done => rfl
  | put hp _ ih =>
    obtain ⟨x, y, _, _, _, _, _, _, hs⟩ := hp.sent
    exact ih (by unfold Sink.Works; rw [hs]; exact hw)
  | putFails hp => exact Bool.noConfusion (hp.works hw)
  | tell hf _ ih => exact ih (by unfold Sink.Works; rw [hf.sent.2.2.2.2.2]; exact hw)
  | tellFails hf => exact Bool.noConfusion (hf.works hw)

/-- What a list of steps writes. -/
def bytesOf (ss : List Step) : Bytes := (ss.filterMap EW.block).flatten

theorem bytesOf_append (a b : List Step) : bytesOf (a ++ b) = bytesOf a ++ bytesOf b := by simp [bytesOf]

theorem Steps.sent {b b' : BufWriter} {ss : List Step} (h : Steps b ss none b') : b'.sent = b.sent ++ bytesOf ss := by
  generalize hr : (none : Option Error) = r at h
  induction h with
  | done w => exact (List.append_nil _).symm
  | put hp _ ih =>
    obtain ⟨x, y, hx, hs, hy, _⟩ := hp.sent
    rw [hy.mp rfl, List.append_nil] at hx
    subst hx
    rw [ih hr, hs, List.append_assoc]; rfl
  | putFails => cases hr
  | tell hf _ ih => rw [ih hr, hf.sent.1]; rfl
  | tellFails => cases hr

theorem Steps.buffer {b b' : BufWriter} {ss : List Step} {e : Option Error} (h : Steps b ss e b') :
    b'.cap = b.cap ∧ (b.buf.length ≤ b.cap → b'.buf.length ≤ b.cap) ∧ b.inner.got <+: b'.inner.got := by
  induction h with
  | done w => exact ⟨rfl, fun h => h, List.prefix_rfl⟩
  | put hp _ ih =>
    obtain ⟨x, y, _, _, _, hc, hl, hg, _⟩ := hp.sent
    obtain ⟨h1, h2, h3⟩ := ih
    rw [hc] at h1 h2
    exact ⟨h1, fun h => h2 (hl h), hg.trans h3⟩
  | putFails hp =>
    obtain ⟨x, y, _, _, _, hc, hl, hg, _⟩ := hp.sent
    exact ⟨hc, hl, hg⟩
  | tell hf _ ih =>
    obtain ⟨_, _, hc, hl, hg, _⟩ := hf.sent
    obtain ⟨h1, h2, h3⟩ := ih
    rw [hc] at h1 h2
    exact ⟨h1, fun h => h2 (by omega), hg.trans h3⟩
  | tellFails hf =>
    obtain ⟨_, _, hc, hl, hg, _⟩ := hf.sent
    exact ⟨hc, fun h => by omega, hg⟩

theorem Steps.append {b b' : BufWriter} {s1 s2 : List Step} (h : Steps b (s1 ++ s2) none b') :
    ∃ m, Steps b s1 none m ∧ Steps m s2 none b' := by
  induction s1 generalizing b with
  | nil => exact ⟨b, .done b, h⟩
  | cons s s1 ih =>
    cases h with
    | put hp h => obtain ⟨m, h1, h2⟩ := ih h; exact ⟨m, .put hp h1, h2⟩
    | tell hf h => obtain ⟨m, h1, h2⟩ := ih h; exact ⟨m, .tell hf h1, h2⟩

theorem Steps.tell_arrived {b b' : BufWriter} {s1 s2 : List Step} {e : Error} (h : Steps b (s1 ++ .tell e :: s2) none b') :
    ∃ q, b'.inner.got = b.sent ++ bytesOf s1 ++ q ∧ q <+: bytesOf s2 := by
  obtain ⟨m, h1, h2⟩ := h.append
  have hall := h.sent
  have hs1 := h1.sent
  cases h2 with
  | @tell _ m' _ _ _ _ hf h2 =>
    obtain ⟨hms, hm, _⟩ := hf.sent
    obtain ⟨q, hq⟩ := h2.buffer.2.2
    have hmg : m'.inner.got = b.sent ++ bytesOf s1 := by
      rw [← hs1, ← hms, BufWriter.sent, hm.mp rfl, List.append_nil]
    refine ⟨q, by rw [← hq, hmg], b'.buf, ?_⟩
    have h2s := h2.sent
    rw [BufWriter.sent, ← hq, BufWriter.sent, hm.mp rfl, List.append_nil, List.append_assoc] at h2s
    exact List.append_cancel_left h2s

theorem Runs.ok {w : EW} {b b' : BufWriter} (h : Runs w b (.ok ()) b') : Steps b w.steps none b' ∧ w.status = .ok () := by
  obtain ⟨e, h1, h2⟩ := h
  cases e with
  | none => exact ⟨h1, h2.symm⟩
  | some e => cases h2

/-! ## Writers -/

theorem Arrives.of {n : Nat} {w : EW} {v : W} (h : Erases n w v) : Arrives w v := by
  have hrun : ∀ {b b' : BufWriter} {r : ERes Unit}, Direct b → Runs w b r b' →
      Direct b' ∧ ∃ cap, b'.inner.got = b.inner.got ++ v.bytes.take cap ∧ r.kinds = (v.run cap).2 := by
    intro b b' r hd ⟨e, hs, hr⟩
    obtain ⟨hd', cap, hc⟩ := hs.direct hd
    obtain ⟨h1, h2⟩ := hc n h.tells
    refine ⟨hd', cap, ?_, ?_⟩
    · rw [h1, EW.accepted_eq h.tells, ← h.toW]; rfl
    · have := congrArg Prod.snd (h.run cap n (Nat.le_refl n))
      rw [← this, hr, h2]; rfl
  have hall : ∀ {b b' : BufWriter}, Direct b → Direct b' → Steps b w.steps none b' → b'.inner.got = b.inner.got ++ v.bytes := by
    intro b b' hd hd' hs
    have := hs.sent
    rw [BufWriter.sent, BufWriter.sent, hd.1, hd'.1, List.append_nil, List.append_nil] at this
    rw [this, ← h.toW]; rfl
  refine ⟨fun b r b' hd hr => ?_, fun b hd hf => ?_⟩
  · obtain ⟨hd', hc⟩ := hrun hd hr
    refine ⟨hd', hc, ?_⟩
    rintro rfl
    exact hall hd hd' hr.ok.1
  · obtain ⟨e, b', hs⟩ := Steps.exists hf w.steps
    refine ⟨_, b', ⟨e, hs, rfl⟩, ?_, fun hw => ?_⟩
    · rintro r' b'' ⟨e', hs', hr'⟩
      obtain ⟨rfl, rfl⟩ := hs.unique hs'
      exact ⟨hr', rfl⟩
    · obtain rfl := hs.works hw
      refine ⟨?_, hall hd (hs.direct hd).1 hs⟩
      rw [← h.toW]; rfl

theorem ArrivesOnFlush.of {n : Nat} {w : EW} {v : W} (h : Erases n w v) : ArrivesOnFlush w v := by
  intro b b' hb hr
  obtain ⟨hs, _⟩ := hr.ok
  have hsent := hs.sent
  rw [BufWriter.sent, BufWriter.sent, hb, List.append_nil] at hsent
  have hv : bytesOf w.steps = v.bytes := by rw [← h.toW]; rfl
  rw [hv] at hsent
  refine ⟨⟨b'.buf, hsent, hs.buffer.2.1 (by rw [hb]; exact Nat.zero_le _)⟩, fun b'' hf => ?_⟩
  obtain ⟨h1, h2, _⟩ := hf.sent
  rw [BufWriter.sent, BufWriter.sent, h2.mp rfl, List.append_nil, hsent] at h1
  exact h1

section
variable {T V S F : Type} [Scalar F] [Vocab V] [Storage S F]

theorem erases_word2vec [FloatBits F] (e : Embeddings T V S F) (un : Bool) : Erases 0 (EWrite.word2vec e un) (e.writeWord2vec un) := by
  refine (erases_shapeLine e).seq0 (erases_eachRow e un fun w v => ?_)
  erases

theorem erases_fastText [ScalarNat F] [FloatBits F] (e : Embeddings T FastTextSubwordVocab S F) : Erases 0 (EWrite.fastText e) e.writeFastText := by
  unfold EWrite.fastText Embeddings.writeFastText
  refine Erases.ofRes _ fun c => ?_
  refine Erases.seq0 (Erases.seq0 (Erases.seq0 (Erases.seq0 ?_ (erases_ftConfig c)) (erases_ftVocab _)) (Erases.emit _ _))
    (erases_ftEmbeddings e)
  erases

end

theorem erases_floretText {T F : Type} [Scalar F] [FloatText F] (e : Embeddings T FloretSubwordVocab (NdArray F) F) :
    Erases 0 (EWrite.floretText e) e.writeFloret := by
  unfold EWrite.floretText Embeddings.writeFloret
  refine Erases.seq0 (Erases.seq0 (Erases.ofRes _ fun _ => Erases.emit _ _) ?_) (Erases.each (fun _ => Erases.emit _ _) _)
  generalize decide (Vocab.wordsLen e.vocab ≤ e.storage.inner.nrows) = b
  cases b
  · exact Erases.done' rfl
  · exact Erases.nil

theorem erases_file {T : Type} [Toml T] (e : Embeddings T VocabWrap StorageWrap F32) (off : Nat) :
    Erases (OutPieces.positions e.vocab + 4) (EWrite.embeddings (fun v _ => EWrite.vocab v) EWrite.storage e off) (e.write off) :=
  erases_embeddings e (erases_vocab e.vocab) erases_storage off

theorem erases_view_file {T : Type} [Toml T] (e : Embeddings T VocabWrap StorageViewWrap F32) (off : Nat) :
    Erases (OutPieces.positions e.vocab + 4) (EWrite.embeddings (fun v _ => EWrite.vocab v) EWrite.storageView e off) (e.write off) :=
  erases_embeddings e (erases_vocab e.vocab) erases_view off

/-- **C121** (sinks without a buffer). All writers. -/
theorem c121_direct :
    (∀ {T : Type} [Toml T] (e : Embeddings T VocabWrap StorageWrap F32) (off : Nat),
      Arrives (EWrite.embeddings (fun v _ => EWrite.vocab v) EWrite.storage e off) (e.write off)) ∧
    (∀ {T : Type} [Toml T] (e : Embeddings T VocabWrap StorageViewWrap F32) (off : Nat),
      Arrives (EWrite.embeddings (fun v _ => EWrite.vocab v) EWrite.storageView e off) (e.write off)) ∧
    (∀ {T V S F : Type} [Scalar F] [Vocab V] [Storage S F] [FloatBits F] (e : Embeddings T V S F) (un : Bool),
      Arrives (EWrite.word2vec e un) (e.writeWord2vec un)) ∧
    (∀ {T V S F : Type} [Scalar F] [Vocab V] [Storage S F] [FloatText F] (e : Embeddings T V S F) (un : Bool),
      Arrives (EWrite.text e un) (e.writeText un) ∧ Arrives (EWrite.textDims e un) (e.writeTextDims un)) ∧
    (∀ {T F : Type} [Scalar F] [FloatText F] (e : Embeddings T FloretSubwordVocab (NdArray F) F),
      Arrives (EWrite.floretText e) e.writeFloret) ∧
    (∀ {T S F : Type} [Scalar F] [ScalarNat F] [Storage S F] [FloatBits F] (e : Embeddings T FastTextSubwordVocab S F),
      Arrives (EWrite.fastText e) e.writeFastText) :=
  ⟨fun e off => .of (erases_file e off), fun e off => .of (erases_view_file e off), fun e un => .of (erases_word2vec e un),
    fun e un => ⟨.of (erases_text e un), .of ((erases_shapeLine e).seq0 (erases_text e un))⟩, fun e => .of (erases_floretText e),
    fun e => .of (erases_fastText e)⟩

/-- **C121** (with a `BufWriter`, part). Missing: the last data may still be in the buffer (`c121_false`). -/
theorem c121_flush_partial :
    (∀ {T : Type} [Toml T] (e : Embeddings T VocabWrap StorageWrap F32) (off : Nat),
      ArrivesOnFlush (EWrite.embeddings (fun v _ => EWrite.vocab v) EWrite.storage e off) (e.write off)) ∧
    (∀ {T : Type} [Toml T] (e : Embeddings T VocabWrap StorageViewWrap F32) (off : Nat),
      ArrivesOnFlush (EWrite.embeddings (fun v _ => EWrite.vocab v) EWrite.storageView e off) (e.write off)) ∧
    (∀ {T V S F : Type} [Scalar F] [Vocab V] [Storage S F] [FloatBits F] (e : Embeddings T V S F) (un : Bool),
      ArrivesOnFlush (EWrite.word2vec e un) (e.writeWord2vec un)) ∧
    (∀ {T V S F : Type} [Scalar F] [Vocab V] [Storage S F] [FloatText F] (e : Embeddings T V S F) (un : Bool),
      ArrivesOnFlush (EWrite.text e un) (e.writeText un) ∧ ArrivesOnFlush (EWrite.textDims e un) (e.writeTextDims un)) ∧
    (∀ {T F : Type} [Scalar F] [FloatText F] (e : Embeddings T FloretSubwordVocab (NdArray F) F),
      ArrivesOnFlush (EWrite.floretText e) e.writeFloret) ∧
    (∀ {T S F : Type} [Scalar F] [ScalarNat F] [Storage S F] [FloatBits F] (e : Embeddings T FastTextSubwordVocab S F),
      ArrivesOnFlush (EWrite.fastText e) e.writeFastText) :=
  ⟨fun e off => .of (erases_file e off), fun e off => .of (erases_view_file e off), fun e un => .of (erases_word2vec e un),
    fun e un => ⟨.of (erases_text e un), .of ((erases_shapeLine e).seq0 (erases_text e un))⟩, fun e => .of (erases_floretText e),
    fun e => .of (erases_fastText e)⟩

/-- **C121** (outcomes with a `BufWriter`). The outcome is one that a sink without a buffer has when it fails after some bytes or
after some questions for its position, and what was handed over is what this sink accepts. -/
theorem c121_outcome (w : EW) (b b' : BufWriter) (r : ERes Unit) (h : Runs w b r b') :
    ∃ cap tells, (b'.inner.got ++ b'.buf = b.inner.got ++ b.buf ++ (w.run cap tells).1) ∧ r = (w.run cap tells).2 := by
  obtain ⟨e, hs, hr⟩ := h
  obtain ⟨cap, tells, h1, h2⟩ := hs.run
  exact ⟨cap, tells, h1, by rw [hr, h2]; rfl⟩

/-- **C121** (files without norms). If success was reported although something is missing at the sink, then reading the file
fails, unless the storage has no data. -/
theorem c121_detected {T : Type} [Toml T] (e : Embeddings T VocabWrap StorageWrap F32) (he : Storable e) (hn : e.norms = none)
    (hi : EndsInside e.storage) (b b' : BufWriter) (hb : b.buf = [])
    (hr : Runs (EWrite.embeddings (fun v _ => EWrite.vocab v) EWrite.storage e b.inner.got.length) b (.ok ()) b') :
    b'.inner.got = b.inner.got ++ (e.write b.inner.got.length).bytes ∨
    (Embeddings.read b'.inner.got b.inner.got.length : Res (Embeddings T VocabWrap StorageWrap F32)) = .err .io := by
  obtain ⟨⟨lost, hl, _⟩, _⟩ := c121_flush_partial.1 e b.inner.got.length b b' hb hr
  by_cases hlost : lost = []
  · left; rw [← hl, hlost, List.append_nil]
  · right
    have hpos := List.length_pos_iff.mpr hlost
    have h := c18_partial e he hn hi b.inner.got b'.inner.got.length (by rw [← hl, List.length_append]; omega)
    rw [← hl, List.take_left] at h
    exact h

/-! ## Files with norms -/

/-- What is written before the norms. -/
structure Body {T V S : Type} [Toml T] [WriteChunk V] [WriteChunk S] (e : Embeddings T V S F32) (off : Nat) (body : Bytes) : Prop where
  parts : ∃ o1 o2 o3, o1 = off + (Header.mk e.chunkIds).write.size ∧ o2 = o1 + (Embeddings.writeOpt e.metadata o1).size ∧
    o3 = o2 + (writeChunk e.vocab o2).size ∧ body = (Header.mk e.chunkIds).write.bytes ++ ((Embeddings.writeOpt e.metadata o1).bytes ++
      ((writeChunk e.vocab o2).bytes ++ (writeChunk e.storage o3).bytes))

open Embeddings in
theorem read_before_norms {T V S : Type} [Toml T] [WriteChunk V] [ReadChunk V] [VocabChunk V] [WriteChunk S] [ReadChunk S] [StorageChunk S]
    {e : Embeddings T V S F32} (he : Storable e) (pre : Bytes) :
    ∃ body : Bytes, Body e pre.length body ∧
      (e.write pre.length).bytes = body ++ (writeOpt e.norms (pre.length + body.length)).bytes ∧
      ∀ post, readHead (T := T) (V := V) (pre ++ body ++ post) pre.length >>=
          (fun r => (readChunk : Rd S) (pre ++ body ++ post) r.2 >>= fun s => .ok ((r.1.1, r.1.2, s.1), s.2)) =
        .ok ((e.metadata, e.vocab, e.storage), pre.length + body.length) := by
  obtain ⟨hg, o1, o2, o3, o4, h1, h2, h3, h4, hb⟩ := write_bytes e pre.length he.vocab.good he.storage.good
  have hm := readOptMetadata_readsAt e (StorageChunk.id_ne _) he.metadata pre.length
  rw [← h1] at hm
  have hh : ReadsAt (readHead (T := T) (V := V)) pre.length _ _ :=
    hm.bind (f := fun m => readChunk >>= fun v => pure (m, v))
      (ReadsAt.map (fun v => (e.metadata, v)) (he.vocab.readsAt _))
  have e2 : pre.length + ((Header.mk e.chunkIds).write.bytes ++ (writeOpt e.metadata o1).bytes).length = o2 := by
    simp only [W.size] at h1 h2
    simp; omega
  rw [e2] at hh
  have e4 : pre.length + ((Header.mk e.chunkIds).write.bytes ++ ((writeOpt e.metadata o1).bytes ++
        ((writeChunk e.vocab o2).bytes ++ (writeChunk e.storage o3).bytes))).length = o4 := by
    simp only [W.size, List.length_append] at *; omega
  refine ⟨_, ⟨o1, o2, o3, h1, h2, h3, rfl⟩, ?_, ?_⟩
  · rw [hb, e4]; simp [List.append_assoc]
  · intro post
    rw [e4]
    have r1 := hh pre ((writeChunk e.storage o3).bytes ++ post) rfl
    have r2 := he.storage.readsAt o3 (pre ++ ((Header.mk e.chunkIds).write.bytes ++ ((writeOpt e.metadata o1).bytes ++
        ((writeChunk e.vocab o2).bytes)))) post
        (by simp only [W.size, List.length_append] at *; omega)
    simp only [List.append_assoc] at r1 r2 ⊢
    rw [r1]
    have e3 : pre.length + ((Header.mk e.chunkIds).write.bytes ++ ((writeOpt e.metadata o1).bytes ++
        (writeChunk e.vocab o2).bytes)).length = o3 := by
      simp only [W.size, List.length_append] at *; omega
    rw [e3]
    simp only [Res.ok_bind]
    rw [r2]
    simp only [Res.ok_bind]
    rw [h4]; rfl

/-- The steps end with those for the norms. -/
def EndsWith (w : EW) (off : Nat) (ns : List F32) (body : Bytes) : Prop :=
  ∃ s1, w.steps = s1 ++ (EWrite.norms ns (off + body.length)).steps ∧ bytesOf s1 = body

theorem EndsWith.andThen {n : Nat} {a b : Nat → EW} {v : W} {off : Nat} {ns : List F32} {body : Bytes} (h : Erases n (a off) v)
    (hg : v.Good) (hb : EndsWith (b (off + v.size)) (off + v.size) ns body) :
    EndsWith (EWrite.andThen a b off) off ns (v.bytes ++ body) := by
  have hst : (a off).status = .ok () := by
    have hk : (a off).status.kinds = .ok () := (congrArg W.status h.toW).trans hg
    cases hs : (a off).status with
    | ok u => rfl
    | err x => rw [hs] at hk; cases hk
    | panic => rw [hs] at hk; cases hk
  obtain ⟨s1, hs, hb⟩ := hb
  refine ⟨(a off).steps ++ s1, ?_, ?_⟩
  · unfold EWrite.andThen
    rw [(EW.Says.steps_seq hst).1, h.toW, hs, List.append_assoc, List.length_append]
    simp only [W.size, Nat.add_assoc]
  · rw [bytesOf_append, hb, ← h.toW]; rfl

theorem file_endsWith {T : Type} [Toml T] {e : Embeddings T VocabWrap StorageWrap F32} {off : Nat} {body : Bytes} (hb : Body e off body)
    (hv : ∀ off, (writeChunk e.vocab off).Good) (hs : ∀ off, (writeChunk e.storage off).Good) {m : NdNorms F32} (hm : e.norms = some m) :
    EndsWith (EWrite.embeddings (fun v _ => EWrite.vocab v) EWrite.storage e off) off m.inner body := by
  obtain ⟨o1, o2, o3, rfl, rfl, rfl, rfl⟩ := hb
  unfold EWrite.embeddings
  refine EndsWith.andThen (erases_header _) (Header.write_good _) ?_
  refine EndsWith.andThen (n := 0) ?_ ?_ ?_
  · cases e.metadata with
    | none => exact Erases.nil
    | some m => exact erases_metadata m
  · cases e.metadata with
    | none => exact W.good_nil
    | some m => exact writeMetadata_good m
  · refine EndsWith.andThen (erases_vocab _ _) (hv _) ?_
    rw [← List.append_nil (writeChunk e.storage _).bytes]
    refine EndsWith.andThen (erases_storage _ _) (hs _) ⟨[], ?_, rfl⟩
    rw [hm]; rfl

/-- **C121** (files with norms). If success was reported, then the file can be read, with the norms or without them. -/
theorem c121_norms {T : Type} [Toml T] (e : Embeddings T VocabWrap StorageWrap F32) (he : Storable e) (m : NdNorms F32)
    (hm : e.norms = some m) (b b' : BufWriter) (hb : b.buf = [])
    (hr : Runs (EWrite.embeddings (fun v _ => EWrite.vocab v) EWrite.storage e b.inner.got.length) b (.ok ()) b') :
    (Embeddings.read b'.inner.got b.inner.got.length : Res (Embeddings T VocabWrap StorageWrap F32)) = .ok e ∨
    (Embeddings.read b'.inner.got b.inner.got.length : Res (Embeddings T VocabWrap StorageWrap F32)) =
      .ok { e with norms := none } := by
  obtain ⟨body, hbody, hbytes, hread⟩ := read_before_norms he b.inner.got
  obtain ⟨s1, hs1, hb1⟩ := file_endsWith hbody he.vocab.good he.storage.good hm
  obtain ⟨⟨lost, hl, _⟩, _⟩ := c121_flush_partial.1 e b.inner.got.length b b' hb hr
  obtain ⟨rest, hrest⟩ : [Step.put (le32 6) (.write "Cannot write norms chunk identifier"), .tell (.write positionText),
      .tell (.read positionText)] <+:
      (EWrite.norms m.inner (b.inner.got.length + body.length)).steps := by
    unfold EWrite.norms
    repeat' first
      | exact List.prefix_rfl
      | refine List.IsPrefix.trans ?_ (EW.steps_prefix _ _)
  have hsteps := hr.ok.1
  rw [hs1, ← hrest, show ∀ p t1 t2 : Step, s1 ++ ([p, t1, t2] ++ rest) = (s1 ++ [p]) ++ t1 :: t2 :: rest by simp] at hsteps
  obtain ⟨q, hq, _⟩ := hsteps.tell_arrived
  rw [BufWriter.sent, hb, List.append_nil, bytesOf_append, hb1] at hq
  generalize hx : bytesOf [Step.put (le32 6) (.write "Cannot write norms chunk identifier")] ++ q = x
  have hq : b'.inner.got = b.inner.got ++ body ++ x := by rw [hq, ← hx]; simp only [List.append_assoc]
  have hfull := (c15_round_trip e he b.inner.got [] (by intro _; decide)).2
  rw [List.append_nil, ← hl, read_eq] at hfull
  rw [read_eq, hq, hread x]
  rw [hq, List.append_assoc _ x lost, hread (x ++ lost), ← List.append_assoc] at hfull
  simp only [Res.ok_bind] at hfull ⊢
  rcases readNorms_mono.mono (b.inner.got ++ body ++ x) lost (b.inner.got.length + body.length) with hn | hn
  · right; rw [hn]; rfl
  · left; rw [← hn]; exact hfull

/-! ## What is false -/

/-- `WriteAll` for sinks that accept everything at once or fail. -/
def simAll (s : Sink) (b : Bytes) : Option (Bytes × Sink) :=
  if b = [] then some ([], s)
  else match s.script s.time with
    | .take k => if b.length ≤ k + 1 then some ([], s.accept b) else none
    | .fail => some (b, s.next)
    | _ => none

theorem simAll_sound {s s' : Sink} {b rest : Bytes} (h : simAll s b = some (rest, s')) : WriteAll s b rest s' := by
  unfold simAll at h
  by_cases hb : b = []
  · rw [if_pos hb] at h; cases h; rw [hb]; exact .done s
  · rw [if_neg hb] at h
    split at h
    · next k hk =>
      split at h
      · next hl =>
        cases h
        refine .take hb hk ?_
        rw [List.take_of_length_le hl, List.drop_eq_nil_of_le hl]
        exact .done _
      · cases h
    · next hk => cases h; exact .fail hb hk
    · cases h

/-- `Flush` for such sinks. -/
def simFlush (w : BufWriter) : Option (Bool × BufWriter) :=
  (simAll w.inner w.buf).map fun p => (p.1.isEmpty, { w with inner := p.2, buf := p.1 })

theorem simFlush_sound {w w' : BufWriter} {ok : Bool} (h : simFlush w = some (ok, w')) : Flush w ok w' := by
  unfold simFlush at h
  obtain ⟨⟨rest, s⟩, hs, hp⟩ := Option.map_eq_some_iff.mp h
  cases hp
  exact ⟨simAll_sound hs⟩

/-- `Steps` for such sinks, while nothing fails. -/
def simSteps : BufWriter → List Step → Option BufWriter
  | w, [] => some w
  | w, .put b _ :: ss => if b.length < w.cap - w.buf.length then simSteps { w with buf := w.buf ++ b } ss else none
  | w, .tell _ :: ss => match simFlush w with
    | some (true, w') => simSteps w' ss
    | _ => none

theorem simSteps_sound {w w' : BufWriter} {ss : List Step} (h : simSteps w ss = some w') : Steps w ss none w' := by
  induction ss generalizing w with
  | nil => cases h; exact .done _
  | cons s ss ih =>
    cases s with
    | put b e =>
      unfold simSteps at h
      split at h
      · next hl => exact .put (.fits hl) (ih h)
      · cases h
    | tell e =>
      unfold simSteps at h
      split at h
      · next hf => exact .tell (simFlush_sound hf) (ih h)
      · cases h

/-- A sink that accepts everything in its first `n` calls of `write` and fails afterwards. -/
def failsFrom (n : Nat) : Sink := ⟨[], fun t => if t < n then .take 10000 else .fail, 0⟩

attribute [local instance] exampleToml

/-- The writer of the example. -/
def exampleFile : EW := EWrite.embeddings (fun v _ => EWrite.vocab v) EWrite.storage exampleEmbeddings 0

/-- **C121** (false as stated). Through a `BufWriter` with std's capacity, writing succeeds although the sink accepts nothing after
its third call. Flushing the buffer fails, and the file that has arrived is read without an error and without the norms. -/
theorem c121_false : ∃ b' b'' : BufWriter, Runs exampleFile ⟨failsFrom 3, [], 8192⟩ (.ok ()) b' ∧ Flush b' false b'' ∧
    b'.inner.got.length < (exampleEmbeddings.write 0).bytes.length ∧ b''.inner.got = b'.inner.got ∧
    (Embeddings.read b'.inner.got 0 : Res (Embeddings Str VocabWrap StorageWrap F32)) =
      .ok { exampleEmbeddings with norms := none } ∧ exampleEmbeddings.norms ≠ none := by
  have h : ∃ w, simSteps ⟨failsFrom 3, [], 8192⟩ exampleFile.steps = some w ∧ w.inner.got = (exampleEmbeddings.write 0).bytes.take 128 ∧
      w.buf ≠ [] ∧ w.inner.script w.inner.time = .fail := by
    refine ⟨(simSteps ⟨failsFrom 3, [], 8192⟩ exampleFile.steps).get ?_, Option.some_get _ |>.symm, ?_, ?_, ?_⟩ <;> decide +kernel
  obtain ⟨w, hw, hg, hb, hf⟩ := h
  refine ⟨w, _, ⟨none, simSteps_sound hw, ?_⟩, simFlush_sound (w := w) (w' := { w with inner := w.inner.next }) ?_, ?_, rfl, ?_, ?_⟩
  · decide +kernel
  · have : simAll w.inner w.buf = some (w.buf, w.inner.next) := by
      unfold simAll; rw [if_neg hb, hf]
    unfold simFlush
    rw [this]
    cases hbb : w.buf with
    | nil => exact absurd hbb hb
    | cons => rfl
  · rw [hg]; decide +kernel
  · rw [hg]; decide +kernel
  · decide +kernel

/-! ## Examples -/

/-- A sink that is interrupted, accepts one byte, is interrupted again and accepts up to five bytes, and so on, meets the hypotheses
of C121 about sinks. -/
def pieces : Sink := ⟨[], fun t => match t % 4 with
  | 1 => .take 0
  | 3 => .take 4
  | _ => .interrupted, 0⟩

example : pieces.Fair ∧ pieces.Works ∧ Direct ⟨pieces, [], 0⟩ := by
  refine ⟨fun t => ⟨4 * t + 1, by omega, ?_⟩, fun t => ?_, rfl, rfl⟩
  · have : (4 * t + 1) % 4 = 1 := by omega
    simp [pieces, this]
  · simp only [pieces]
    split <;> simp

/-- The file of the example is written to it. -/
example : ∃ r b', Runs exampleFile ⟨pieces, [], 0⟩ r b' ∧ r.kinds = .ok () ∧ b'.inner.got = (exampleEmbeddings.write 0).bytes := by
  obtain ⟨r, b', h, _, hw⟩ := (c121_direct.1 exampleEmbeddings 0).2 ⟨pieces, [], 0⟩ ⟨rfl, rfl⟩ (fun t => ⟨4 * t + 1, by omega, by
    have : (4 * t + 1) % 4 = 1 := by omega
    simp [pieces, this]⟩)
  obtain ⟨h1, h2⟩ := hw (fun t => by
    simp only [pieces]
    split <;> simp)
  exact ⟨r, b', h, h1.trans (by decide +kernel), h2⟩

/-- `c121_norms` and `c121_flush_partial` for a sink that accepts everything. -/
example : ∃ b' b'', Runs exampleFile ⟨failsFrom 9, [], 8192⟩ (.ok ()) b' ∧ Flush b' true b'' ∧
    b''.inner.got = (exampleEmbeddings.write 0).bytes ∧ Storable exampleEmbeddings ∧ exampleEmbeddings.norms = some ⟨[5, 6]⟩ := by
  have h : ∃ w, simSteps ⟨failsFrom 9, [], 8192⟩ exampleFile.steps = some w ∧
      ∃ w', simFlush w = some (true, w') := by
    refine ⟨(simSteps ⟨failsFrom 9, [], 8192⟩ exampleFile.steps).get (by decide +kernel), Option.some_get _ |>.symm,
      ((simFlush ((simSteps ⟨failsFrom 9, [], 8192⟩ exampleFile.steps).get (by decide +kernel))).get (by decide +kernel)).2, ?_⟩
    rw [Option.eq_some_iff_get_eq]
    refine ⟨by decide +kernel, Prod.ext ?_ rfl⟩
    decide +kernel
  obtain ⟨w, hw, w', hw'⟩ := h
  have hr : Runs exampleFile ⟨failsFrom 9, [], 8192⟩ (.ok ()) w := ⟨none, simSteps_sound hw, by decide +kernel⟩
  exact ⟨w, w', hr, simFlush_sound hw', (c121_flush_partial.1 exampleEmbeddings 0 _ _ rfl hr).2 _ (simFlush_sound hw'),
    exampleEmbeddings_storable, rfl⟩

/-- The example without its norms. -/
def exampleNoNorms : Embeddings Str VocabWrap StorageWrap F32 := { exampleEmbeddings with norms := none }

/-- The writer for these, for a sink with the given data. -/
def exampleNoNormsFile (b : BufWriter) : EW :=
  EWrite.embeddings (fun v _ => EWrite.vocab v) EWrite.storage exampleNoNorms b.inner.got.length

/-- Embeddings without norms meet the hypotheses of `c121_detected`; here the sink fails during the matrix. -/
example : Storable exampleNoNorms ∧ exampleNoNorms.norms = none ∧ EndsInside exampleNoNorms.storage ∧
    ∃ b b' : BufWriter, b.inner.got = [] ∧ b.buf = [] ∧ Runs (exampleNoNormsFile b) b (.ok ()) b' ∧
      (Embeddings.read b'.inner.got b.inner.got.length : Res (Embeddings Str VocabWrap StorageWrap F32)) = .err .io := by
  have hs : Storable exampleNoNorms := ⟨exampleEmbeddings_storable.metadata,
    exampleEmbeddings_storable.vocab, exampleEmbeddings_storable.storage, by intro n h; cases h⟩
  have hi : EndsInside exampleNoNorms.storage := StorageWrap.endsInside_ndArray (by decide)
  have h : ∃ w, simSteps ⟨failsFrom 2, [], 8192⟩ (exampleNoNormsFile ⟨failsFrom 2, [], 8192⟩).steps = some w ∧ w.inner.got.length < 90 := by
    refine ⟨(simSteps ⟨failsFrom 2, [], 8192⟩ (exampleNoNormsFile ⟨failsFrom 2, [], 8192⟩).steps).get ?_, Option.some_get _ |>.symm, ?_⟩ <;>
      decide +kernel
  have hlen : 90 ≤ ((failsFrom 2).got ++ (exampleNoNorms.write (failsFrom 2).got.length).bytes).length := by decide +kernel
  have hst : (exampleNoNormsFile ⟨failsFrom 2, [], 8192⟩).status = .ok () := by decide +kernel
  obtain ⟨w, hw, hl⟩ := h
  have hr : Runs (exampleNoNormsFile ⟨failsFrom 2, [], 8192⟩) ⟨failsFrom 2, [], 8192⟩ (.ok ()) w :=
    ⟨none, simSteps_sound hw, hst.symm⟩
  refine ⟨hs, rfl, hi, ⟨failsFrom 2, [], 8192⟩, w, rfl, rfl, hr, ?_⟩
  generalize hb : (⟨failsFrom 2, [], 8192⟩ : BufWriter) = b at hr ⊢
  have hgot : b.inner = failsFrom 2 := by rw [← hb]
  rcases c121_detected exampleNoNorms hs rfl hi b w (by rw [← hb]) hr with h | h
  · rw [h, hgot] at hl
    omega
  · exact h

end Sinks

end FF
