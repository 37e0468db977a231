import Verif.Model.Text

/-!
# Readers that never panic
-/

namespace FF

namespace Res

theorem bind_ne_panic {α β : Type} {r : Res α} {f : α → Res β} (h : r ≠ .panic) (hf : ∀ a, r = .ok a → f a ≠ .panic) :
    (r >>= f) ≠ .panic := by
  cases r with
  | ok a => exact hf a rfl
  | err e => intro h; cases h
  | panic => exact absurd rfl h

theorem bind_eq_panic {α β : Type} {r : Res α} {f : α → Res β} :
    (r >>= f) = .panic ↔ r = .panic ∨ ∃ a, r = .ok a ∧ f a = .panic := by
  cases r with
  | ok a => simp
  | err e => simp
  | panic => simp

theorem map_eq_panic {α β : Type} {r : Res α} {f : α → β} : r.map f = .panic ↔ r = .panic := by
  cases r <;> simp [Res.map]

theorem ofOption_ne_panic {α : Type} (e : Err) (o : Option α) : Res.ofOption e o ≠ .panic := by
  cases o <;> simp [Res.ofOption]

theorem mapM_ne_panic {α β : Type} {f : α → Res β} {l : List α} (h : ∀ a ∈ l, f a ≠ .panic) : l.mapM f ≠ .panic := by
  induction l with
  | nil => simp
  | cons a l ih =>
    simp only [List.mapM_cons]
    exact bind_ne_panic (h a (by simp)) fun b _ =>
      bind_ne_panic (ih fun x hx => h x (by simp [hx])) fun bs _ => by simp

end Res

namespace Rd

/-- The reader returns a value or an error on all data and at all positions. -/
def NoPanic {α : Type} (p : Rd α) : Prop := ∀ d pos, p d pos ≠ .panic

theorem NoPanic.pure {α : Type} (a : α) : NoPanic (pure a) := fun _ _ => by simp

theorem NoPanic.bind {α β : Type} {p : Rd α} {f : α → Rd β} (hp : NoPanic p) (hf : ∀ a, NoPanic (f a)) :
    NoPanic (p >>= f) := fun d pos => Res.bind_ne_panic (hp d pos) fun a _ => hf a.1 d a.2

theorem NoPanic.fail {α : Type} (e : Err) : NoPanic (fail e : Rd α) := fun _ _ => by simp

theorem NoPanic.lift {α : Type} {r : Res α} (h : r ≠ .panic) : NoPanic (lift r) := fun _ _ hp =>
  h (Res.map_eq_panic.mp hp)

theorem NoPanic.readExact (n : Nat) : NoPanic (readExact n) := fun d pos => by
  unfold Rd.readExact; split
  · simp
  · split <;> simp

theorem NoPanic.readU32 : NoPanic readU32 := NoPanic.bind (.readExact 4) fun _ => .pure _
theorem NoPanic.readU64 : NoPanic readU64 := NoPanic.bind (.readExact 8) fun _ => .pure _
theorem NoPanic.readF32s (n : Nat) : NoPanic (readF32s n) := NoPanic.bind (.readExact _) fun _ => .pure _
theorem NoPanic.position : NoPanic position := fun _ _ => by simp
theorem NoPanic.skip (n : Nat) : NoPanic (skip n) := fun _ _ => by simp

theorem NoPanic.replicateM {α : Type} {p : Rd α} (h : NoPanic p) (n : Nat) : NoPanic (replicateM n p) := by
  induction n with
  | zero => exact .pure _
  | succ n ih => exact .bind h fun _ => .bind ih fun _ => .pure _

theorem NoPanic.alloc {size n : Nat} (h : size * n ≤ isizeMax) : NoPanic (alloc size n) :=
  .lift (by simp [Res.assert, h])

end Rd

open Rd

theorem readUntil_noPanic (delim : UInt8) : NoPanic (readUntil delim) := fun d pos => by
  unfold readUntil; simp

theorem decodeToken_ne_panic (lossy : Bool) (bs : Bytes) : decodeToken lossy bs ≠ .panic := by
  unfold decodeToken; split
  · simp
  · exact Res.ofOption_ne_panic _ _

theorem readToken_noPanic (delim : UInt8) (lossy : Bool) : NoPanic (readToken delim lossy) :=
  .bind (readUntil_noPanic delim) fun _ => .lift (decodeToken_ne_panic _ _)

theorem readNumber_noPanic (delim : UInt8) : NoPanic (readNumber delim) :=
  .bind (readToken_noPanic delim false) fun _ => .lift (Res.ofOption_ne_panic _ _)

end FF
