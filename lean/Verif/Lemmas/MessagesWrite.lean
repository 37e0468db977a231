import Verif.Model.MessagesWrite
import Verif.Lemmas.Messages
import Verif.Props.Written

/-!
# Lemmas for the messages of the writers
-/

namespace FF

open Piece

namespace EW

/-- The error of a step. -/
def errorOf : Step → Error
  | .put _ e => e
  | .tell e => e

/-- Number of bytes of steps. -/
def size (ss : List Step) : Nat := (ss.filterMap block).flatten.length

/-- Number of calls of `stream_position`. -/
def nTells : List Step → Nat
  | [] => 0
  | .put _ _ :: ss => nTells ss
  | .tell _ :: ss => nTells ss + 1

theorem seq_def (a b : EW) : a ++ b = seq a b := rfl

theorem size_append (a b : List Step) : size (a ++ b) = size a + size b := by simp [size]

theorem nTells_append (a b : List Step) : nTells (a ++ b) = nTells a + nTells b := by
  induction a with
  | nil => simp [nTells]
  | cons s a ih => cases s <;> simp [nTells, ih] <;> omega

theorem fails_append (cap tells : Nat) (a b : List Step) :
    fails cap tells (a ++ b) = (fails cap tells a).or (fails (cap - size a) (tells - nTells a) b) := by
  induction a generalizing cap tells with
  | nil => simp [fails, size, nTells]
  | cons s a ih =>
    cases s with
    | put x e =>
      simp only [List.cons_append, fails]
      by_cases h : x.length ≤ cap
      · rw [if_pos h, if_pos h, ih]
        simp [size, nTells, block, Nat.sub_sub]
      · rw [if_neg h, if_neg h]; rfl
    | tell e =>
      cases tells with
      | zero => simp [fails]
      | succ t => simp [fails, ih, size, nTells, List.filterMap_cons, block, Nat.add_sub_add_right]

theorem accepted_eq {ss : List Step} {tells : Nat} (h : nTells ss ≤ tells) (cap : Nat) :
    accepted cap tells ss = (ss.filterMap block).flatten.take cap := by
  induction ss generalizing cap tells with
  | nil => simp [accepted]
  | cons s a ih =>
    cases s with
    | put x e =>
      simp only [accepted]
      by_cases hx : x.length ≤ cap
      · rw [if_pos hx, ih h]
        simp only [List.filterMap_cons, block, List.flatten_cons]
        rw [List.take_append, List.take_of_length_le hx]
      · rw [if_neg hx]
        simp only [List.filterMap_cons, block, List.flatten_cons]
        rw [List.take_append_of_le_length (by omega)]
    | tell e =>
      cases tells with
      | zero => simp [nTells] at h
      | succ t =>
        simp only [accepted, List.filterMap_cons, block]
        exact ih (by simpa [nTells] using h) cap

theorem fails_none {ss : List Step} {tells : Nat} (h : nTells ss ≤ tells) (cap : Nat) :
    fails cap tells ss = none ↔ (ss.filterMap block).flatten.length ≤ cap := by
  induction ss generalizing cap tells with
  | nil => simp [fails]
  | cons s a ih =>
    cases s with
    | put x e =>
      simp only [fails, List.filterMap_cons, block, List.flatten_cons, List.length_append]
      by_cases hx : x.length ≤ cap
      · rw [if_pos hx, ih h]; omega
      · rw [if_neg hx]; simp; omega
    | tell e =>
      cases tells with
      | zero => simp [nTells] at h
      | succ t =>
        simp only [fails, List.filterMap_cons, block]
        exact ih (by simpa [nTells] using h) cap

theorem fails_mem {ss : List Step} {cap tells : Nat} {e : Error} (h : fails cap tells ss = some e) :
    ∃ s ∈ ss, errorOf s = e := by
  induction ss generalizing cap tells with
  | nil => simp [fails] at h
  | cons s a ih =>
    cases s with
    | put x e' =>
      simp only [fails] at h
      split at h
      · obtain ⟨s, hs, he⟩ := ih h; exact ⟨s, by simp [hs], he⟩
      · cases h; exact ⟨_, List.mem_cons_self, rfl⟩
    | tell e' =>
      cases tells with
      | zero => simp only [fails] at h; cases h; exact ⟨_, List.mem_cons_self, rfl⟩
      | succ t =>
        simp only [fails] at h
        obtain ⟨s, hs, he⟩ := ih h; exact ⟨s, by simp [hs], he⟩

/-- Steps that all have the same error. -/
theorem fails_same {ss : List Step} {e : Error} (h : ∀ s ∈ ss, ∃ b, s = .put b e) (cap tells : Nat) :
    fails cap tells ss = if cap < size ss then some e else none := by
  induction ss generalizing cap with
  | nil => simp [fails, size]
  | cons s a ih =>
    obtain ⟨b, rfl⟩ := h s (by simp)
    have := ih (fun s hs => h s (by simp [hs])) (cap - b.length)
    simp only [fails, this]
    have hs : size (.put b e :: a) = b.length + size a := by simp [size, block]
    rw [hs]
    by_cases hb : b.length ≤ cap
    · rw [if_pos hb]
      by_cases hc : cap - b.length < size a
      · rw [if_pos hc, if_pos (by omega)]
      · rw [if_neg hc, if_neg (by omega)]
    · rw [if_neg hb, if_pos (by omega)]

theorem toW_append (a b : EW) : (a ++ b).toW = a.toW ++ b.toW := by
  cases a with
  | mk ss st => cases st <;> simp [seq_def, seq, toW, W.seq_def, W.seq, ERes.kinds]

/-- Without messages, `w` is the writer `v`; it asks at most `n` times for the position, and all errors of its steps are those of
the sink. -/
structure Erases (n : Nat) (w : EW) (v : W) : Prop where
  toW : w.toW = v
  tells : nTells w.steps ≤ n
  io : ∀ s ∈ w.steps, (errorOf s).kind = .io

namespace Erases

theorem seq {n m : Nat} {a b : EW} {v u : W} (ha : Erases n a v) (hb : Erases m b u) : Erases (n + m) (a ++ b) (v ++ u) := by
  refine ⟨by rw [toW_append, ha.toW, hb.toW], ?_, ?_⟩
  · cases a with
    | mk ss st =>
      cases st with
      | ok => show nTells (ss ++ b.steps) ≤ _; rw [nTells_append]; exact Nat.add_le_add ha.tells hb.tells
      | err => exact Nat.le_trans ha.tells (Nat.le_add_right _ _)
      | panic => exact Nat.le_trans ha.tells (Nat.le_add_right _ _)
  · cases a with
    | mk ss st =>
      cases st with
      | ok =>
        intro s (hs : s ∈ ss ++ b.steps)
        rcases List.mem_append.mp hs with h | h
        · exact ha.io s h
        · exact hb.io s h
      | err => exact ha.io
      | panic => exact ha.io

theorem seq0 {n : Nat} {a b : EW} {v u : W} (ha : Erases n a v) (hb : Erases 0 b u) : Erases n (a ++ b) (v ++ u) := ha.seq hb

theorem emit (desc : String) (b : Bytes) : Erases 0 (EW.emit desc b) (W.emit b) :=
  ⟨rfl, Nat.le_refl _, by simp [EW.emit, errorOf, Error.kind]⟩
theorem emitRead (desc : String) (b : Bytes) : Erases 0 (EW.emitRead desc b) (W.emit b) :=
  ⟨rfl, Nat.le_refl _, by simp [EW.emitRead, errorOf, Error.kind]⟩
theorem u32 (desc : String) (x : Nat) : Erases 0 (EW.u32 desc x) (W.u32 x) := emit desc _
theorem u64 (desc : String) (x : Nat) : Erases 0 (EW.u64 desc x) (W.u64 x) := emit desc _
theorem f32 (desc : String) (x : F32) : Erases 0 (EW.f32 desc x) (W.f32 x) := emit desc _
theorem nil : Erases 0 EW.nil W.nil := ⟨rfl, Nat.le_refl _, by simp [EW.nil]⟩
theorem done (r : ERes Unit) : Erases 0 (EW.done r) (W.done r.kinds) := ⟨rfl, Nat.le_refl _, by simp [EW.done]⟩

theorem done' {r : ERes Unit} {s : Res Unit} (h : r.kinds = s) : Erases 0 (EW.done r) (W.done s) := h ▸ done r

theorem le {n m : Nat} {w : EW} {v : W} (h : Erases n w v) (hm : n ≤ m) : Erases m w v :=
  ⟨h.toW, Nat.le_trans h.tells hm, h.io⟩

theorem tell {n : Nat} {a : EW} {v : W} {e : Error} (ha : Erases n a v) (he : e.kind = .io) :
    Erases (n + 1) (a ++ EW.tell e) v := by
  have : v ++ W.nil = v := by
    cases v with
    | mk bs st => cases st <;> simp [W.seq_def, W.seq, W.nil]
  have h : Erases 1 (EW.tell e) W.nil := ⟨rfl, Nat.le_refl _, by simpa [EW.tell, errorOf] using he⟩
  exact this ▸ ha.seq h

theorem each {α : Type} {f : α → EW} {g : α → W} (h : ∀ a, Erases 0 (f a) (g a)) (l : List α) :
    Erases 0 (EW.each f l) (W.each g l) := by
  induction l with
  | nil => exact nil
  | cons a l ih => exact (h a).seq ih

theorem ofRes {α : Type} {n : Nat} {f : α → EW} {g : α → W} (r : Res α) (h : ∀ a, Erases n (f a) (g a)) :
    Erases n (EW.ofRes r f) (W.ofRes r g) := by
  cases r with
  | ok a => exact h a
  | err e => exact (done' (by cases e <;> rfl)).le (Nat.zero_le _)
  | panic => exact (done' rfl).le (Nat.zero_le _)

theorem ofView {α : Type} {n : Nat} {f : α → EW} {g : α → W} (r : Res α) (h : ∀ a, Erases n (f a) (g a)) :
    Erases n (EW.ofRes r f) (W.ofView r g) := by
  cases r with
  | ok a => exact h a
  | err e => exact (done' (by cases e <;> rfl)).le (Nat.zero_le _)
  | panic => exact (done' rfl).le (Nat.zero_le _)

theorem inContext {n : Nat} {w : EW} {v : W} (c : String) (h : Erases n w v) : Erases n (EW.inContext c w) v := by
  cases w with
  | mk ss st =>
    have h1 : ∀ ss : List Step, (ss.map fun | .put b e => .put b (.context c e) | .tell e => .tell (.context c e)).filterMap block =
        ss.filterMap block := by
      intro ss
      induction ss with
      | nil => rfl
      | cons s ss ih => cases s <;> simp [List.filterMap_cons, block, ih]
    have h2 : ∀ ss : List Step, nTells (ss.map fun | .put b e => .put b (.context c e) | .tell e => .tell (.context c e)) =
        nTells ss := by
      intro ss
      induction ss with
      | nil => rfl
      | cons s ss ih => cases s <;> simp [nTells, ih]
    refine ⟨?_, ?_, ?_⟩
    · rw [← h.toW]
      show W.mk _ _ = W.mk _ _
      congr 1
      · exact h1 ss
      · cases st <;> rfl
    · exact Nat.le_trans (Nat.le_of_eq (h2 ss)) h.tells
    · intro s hs
      obtain ⟨t, ht, rfl⟩ := List.mem_map.mp hs
      have := h.io t ht
      cases t <;> exact this

/-- What the caller sees without the messages. -/
theorem run {n : Nat} {w : EW} {v : W} (h : Erases n w v) (cap tells : Nat) (ht : n ≤ tells) :
    ((w.run cap tells).1, (w.run cap tells).2.kinds) = v.run cap := by
  have htl := Nat.le_trans h.tells ht
  rw [W.run_eq, ← h.toW]
  unfold EW.run
  rw [accepted_eq htl]
  show (_, _) = (_, _)
  congr 1
  show ERes.kinds _ = if ((w.steps.filterMap block).flatten).length ≤ cap then _ else _
  by_cases hc : ((w.steps.filterMap block).flatten).length ≤ cap
  · rw [if_pos hc, (fails_none htl cap).mpr hc]; rfl
  · rw [if_neg hc]
    cases hf : fails cap tells w.steps with
    | none => exact absurd ((fails_none htl cap).mp hf) hc
    | some e =>
      obtain ⟨s, hs, rfl⟩ := fails_mem hf
      show Res.err _ = _
      rw [h.io s hs]

end Erases

/-- `w` writes the pieces `ps`, and its errors are theirs, provided that it may ask `n` times for the position. -/
structure Says (n : Nat) (w : EW) (ps : List Piece) : Prop where
  status : w.status = .ok ()
  tells : nTells w.steps ≤ n
  size : EW.size w.steps = total ps
  fails : ∀ cap tells, n ≤ tells → EW.fails cap tells w.steps = missing ps cap

namespace Says

theorem steps_seq {a b : EW} (h : a.status = .ok ()) : (a ++ b).steps = a.steps ++ b.steps ∧ (a ++ b).status = b.status := by
  cases a with
  | mk ss st =>
    have h : st = .ok () := h
    subst h; exact ⟨rfl, rfl⟩

theorem seq {n m : Nat} {a b : EW} {ps qs : List Piece} (ha : Says n a ps) (hb : Says m b qs) : Says (n + m) (a ++ b) (ps ++ qs) := by
  obtain ⟨h1, h2⟩ := steps_seq (b := b) ha.status
  refine ⟨h2.trans hb.status, ?_, ?_, ?_⟩
  · rw [h1, nTells_append]; exact Nat.add_le_add ha.tells hb.tells
  · rw [h1, size_append, total_append, ha.size, hb.size]
  · intro cap tells ht
    have := ha.tells
    rw [h1, fails_append, missing_append, ha.fails cap tells (by omega), hb.fails _ _ (by omega), ha.size]

theorem seq0 {n : Nat} {a b : EW} {ps qs : List Piece} (ha : Says n a ps) (hb : Says 0 b qs) : Says n (a ++ b) (ps ++ qs) := ha.seq hb

theorem cast {n : Nat} {w : EW} {ps qs : List Piece} (h : Says n w ps) (hp : ps = qs) : Says n w qs := hp ▸ h

theorem nil : Says 0 EW.nil [] := ⟨rfl, Nat.le_refl _, rfl, fun _ _ _ => rfl⟩

theorem same {w : EW} {e : Error} (hs : w.status = .ok ()) (h : ∀ s ∈ w.steps, ∃ b, s = .put b e) :
    Says 0 w [.field e (EW.size w.steps)] := by
  refine ⟨hs, ?_, by simp [total, len], fun cap tells _ => ?_⟩
  · have : ∀ ss : List Step, (∀ s ∈ ss, ∃ b, s = .put b e) → nTells ss = 0 := by
      intro ss
      induction ss with
      | nil => intro _; rfl
      | cons s ss ih =>
        intro h
        obtain ⟨b, rfl⟩ := h s (by simp)
        exact ih fun s hs => h s (by simp [hs])
    rw [this _ h]; exact Nat.le_refl _
  · rw [fails_same h]; simp [missing]

theorem emit (desc : String) (b : Bytes) : Says 0 (EW.emit desc b) [.field (.write desc) b.length] :=
  (same (e := .write desc) rfl (by simp [EW.emit])).cast (by simp [EW.emit, EW.size, block])
theorem emitRead (desc : String) (b : Bytes) : Says 0 (EW.emitRead desc b) [.field (.read desc) b.length] :=
  (same (e := .read desc) rfl (by simp [EW.emitRead])).cast (by simp [EW.emitRead, EW.size, block])
theorem u32 (desc : String) (x : Nat) : Says 0 (EW.u32 desc x) [.field (.write desc) 4] := (emit desc _).cast (by simp)
theorem u64 (desc : String) (x : Nat) : Says 0 (EW.u64 desc x) [.field (.write desc) 8] := (emit desc _).cast (by simp)
theorem f32 (desc : String) (x : F32) : Says 0 (EW.f32 desc x) [.field (.write desc) 4] := (emit desc _).cast (by simp [f32Bytes])

theorem each {α : Type} {f : α → EW} {g : α → List Piece} {l : List α} (h : ∀ a ∈ l, Says 0 (f a) (g a)) :
    Says 0 (EW.each f l) (l.flatMap g) := by
  induction l with
  | nil => exact nil
  | cons a l ih => exact (h a (by simp)).seq (ih fun a ha => h a (by simp [ha]))

theorem tell {n : Nat} {a : EW} {ps : List Piece} {e : Error} (ha : Says n a ps) : Says (n + 1) (a ++ EW.tell e) ps := by
  obtain ⟨h1, h2⟩ := steps_seq (b := EW.tell e) ha.status
  refine ⟨h2, ?_, ?_, ?_⟩
  · rw [h1, nTells_append]; exact Nat.add_le_add ha.tells (Nat.le_refl 1)
  · rw [h1, size_append, ha.size]; rfl
  · intro cap tells ht
    have := ha.tells
    rw [h1, fails_append, ha.fails cap tells (by omega)]
    obtain ⟨t, hte⟩ : ∃ t, tells - nTells a.steps = t + 1 := ⟨tells - nTells a.steps - 1, by omega⟩
    rw [hte]
    simp [EW.tell, EW.fails]

theorem put (b : Bytes) (e : Error) : Says 0 ⟨[.put b e], .ok ()⟩ [.field e b.length] :=
  (same (e := e) rfl (by simp)).cast (by simp [EW.size, block])

/-- Consecutive fields with the same error are one field. -/
theorem merge {n : Nat} {w : EW} {ps qs : List Piece} (h : Says n w ps) (ht : total ps = total qs)
    (hm : ∀ c, missing ps c = missing qs c) : Says n w qs :=
  ⟨h.status, h.tells, h.size.trans ht, fun cap tells hn => (h.fails cap tells hn).trans (hm cap)⟩

theorem missing_same {α : Type} (e : Error) (k : α → Nat) (l : List α) (c : Nat) :
    missing (l.map fun a => .field e (k a)) c = missing [.field e (l.map k).sum] c := by
  induction l generalizing c with
  | nil => simp [missing]
  | cons a l ih =>
    simp only [List.map_cons, missing, ih, List.sum_cons]
    by_cases h : c < k a
    · rw [if_pos h, if_pos (by omega)]
    · rw [if_neg h]
      by_cases h2 : c - k a < (l.map k).sum
      · rw [if_pos h2, if_pos (by omega)]
      · rw [if_neg h2, if_neg (by omega)]

theorem total_same {α : Type} (e : Error) (k : α → Nat) (l : List α) :
    total (l.map fun a => Piece.field e (k a)) = total [.field e (l.map k).sum] := by
  simp [total, len, Function.comp_def]

/-- A loop over pieces that all have the same error. -/
theorem eachSame {α : Type} {f : α → EW} {e : Error} {k : α → Nat} {l : List α} (h : ∀ a ∈ l, Says 0 (f a) [.field e (k a)]) :
    Says 0 (EW.each f l) [.field e (l.map k).sum] := by
  refine ((each h).cast ?_).merge (total_same e k l) (missing_same e k l)
  rw [List.map_eq_flatMap]

theorem sum_const {α : Type} (k : Nat) (l : List α) : (l.map fun _ => k).sum = k * l.length := by
  induction l with
  | nil => rfl
  | cons a l ih => simp [ih, Nat.mul_add]; omega

theorem f32s (desc : String) (xs : List F32) : Says 0 (EW.each (EW.f32 desc) xs) [.field (.write desc) (4 * xs.length)] :=
  (eachSame (k := fun _ => 4) fun x _ => f32 desc x).cast (by rw [sum_const])

theorem bits {F : Type} [FloatBits F] (desc : String) (xs : List F) :
    Says 0 (EW.each (fun x => EW.f32 desc (FloatBits.toBits x)) xs) [.field (.write desc) (4 * xs.length)] :=
  (eachSame (k := fun _ => 4) fun x _ => f32 desc _).cast (by rw [sum_const])

theorem ofRes {α : Type} {n : Nat} {r : Res α} {a : α} {f : α → EW} {ps : List Piece} (hr : r = .ok a) (h : Says n (f a) ps) :
    Says n (EW.ofRes r f) ps := by
  subst hr; exact h

/-- What the caller sees. -/
theorem run {n m : Nat} {w : EW} {v : W} {ps : List Piece} (h : Says n w ps) (hv : Erases m w v) :
    total ps = v.size ∧ ∀ cap tells, n ≤ tells → w.run cap tells = (v.bytes.take cap, match missing ps cap with
      | some e => .err e
      | none => .ok ()) := by
  refine ⟨by rw [← h.size, ← hv.toW]; rfl, fun cap tells hn => ?_⟩
  unfold EW.run
  rw [accepted_eq (Nat.le_trans h.tells hn), h.fails cap tells hn, ← hv.toW, h.status]
  rfl

end Says

end EW

end FF
