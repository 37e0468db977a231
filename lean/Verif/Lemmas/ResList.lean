import Verif.Model.Basic

/-!
# Lemmas about outcomes and `mapM`
-/

namespace FF.Res

/-- The outcome is not an error (it is a value or a panic). -/
def NoErr {α : Type u} (x : Res α) : Prop := ∀ e, x ≠ err e

theorem noErr_ok {α : Type u} (a : α) : NoErr (ok a) := fun _ h => by cases h
theorem noErr_panic {α : Type u} : NoErr (panic : Res α) := fun _ h => by cases h
theorem noErr_unwrap {α : Type u} (o : Option α) : NoErr (unwrap o) := by
  cases o <;> intro e h <;> simp at h
theorem noErr_assert (c : Bool) : NoErr (assert c) := by
  cases c <;> intro e h <;> simp at h
theorem noErr_map {α : Type u} {β : Type v} {x : Res α} {f : α → β} (h : NoErr x) : NoErr (x.map f) := by
  cases x with
  | ok a => exact noErr_ok _
  | err e => exact absurd rfl (h e)
  | panic => exact noErr_panic
theorem noErr_bind {α β : Type u} {x : Res α} {f : α → Res β} (h : NoErr x) (hf : ∀ a, NoErr (f a)) :
    NoErr (x >>= f) := by
  cases x with
  | ok a => exact hf a
  | err e => exact absurd rfl (h e)
  | panic => exact noErr_panic
theorem noErr_mapM {α β : Type} {f : α → Res β} {l : List α} (h : ∀ a, NoErr (f a)) :
    NoErr (l.mapM f) := by
  induction l with
  | nil => exact noErr_ok _
  | cons a l ih =>
    rw [List.mapM_cons]
    exact noErr_bind (h a) fun _ => noErr_bind ih fun _ => noErr_ok _

theorem eq_of_ok_iff {α : Type u} {x y : Res α} (hx : NoErr x) (hy : NoErr y)
    (h : ∀ a, x = ok a ↔ y = ok a) : x = y := by
  cases x with
  | ok a => exact ((h a).mp rfl).symm
  | err e => exact absurd rfl (hx e)
  | panic =>
    cases y with
    | ok a => exact (h a).mpr rfl
    | err e => exact absurd rfl (hy e)
    | panic => rfl

theorem mapM_eq_ok_iff {α β : Type} {f : α → Res β} {l : List α} {rs : List β} :
    l.mapM f = ok rs ↔ l.map f = rs.map ok := by
  induction l generalizing rs with
  | nil =>
    cases rs with
    | nil => simp [List.mapM_nil]
    | cons r rs => simp [List.mapM_nil]
  | cons a l ih =>
    rw [List.mapM_cons, bind_eq_ok]
    cases rs with
    | nil => simp [bind_eq_ok]
    | cons r rs =>
      simp only [List.map_cons, List.cons.injEq, bind_eq_ok, pure_eq, ok.injEq]
      constructor
      · rintro ⟨b, hb, bs, hbs, rfl, rfl⟩
        exact ⟨hb, ih.mp hbs⟩
      · rintro ⟨hb, hbs⟩
        exact ⟨r, hb, rs, ih.mpr hbs, rfl, rfl⟩

theorem map_eq_ok {α : Type u} {β : Type v} {x : Res α} {f : α → β} {b : β} :
    x.map f = ok b ↔ ∃ a, x = ok a ∧ f a = b := by
  cases x <;> simp

theorem unwrap_eq_ok {α : Type u} {o : Option α} {a : α} : unwrap o = ok a ↔ o = some a := by
  cases o <;> simp

theorem mapM_length {α β : Type} {f : α → Res β} {l : List α} {rs : List β} (h : l.mapM f = ok rs) :
    rs.length = l.length := by
  have := congrArg List.length (mapM_eq_ok_iff.mp h)
  simpa using this.symm

theorem mapM_get {α β : Type} {f : α → Res β} {l : List α} {rs : List β} (h : l.mapM f = ok rs)
    {i : Nat} {a : α} (ha : l[i]? = some a) : ∃ b, rs[i]? = some b ∧ f a = ok b := by
  have := congrArg (·[i]?) (mapM_eq_ok_iff.mp h)
  simp only [List.getElem?_map, ha, Option.map_some] at this
  cases hr : rs[i]? with
  | none => simp [hr] at this
  | some b => exact ⟨b, rfl, by simpa [hr] using this⟩

/-- Two passes over a list are one pass. -/
theorem mapM_bind_mapM {α β γ : Type} {f : α → Res β} {g : β → Res γ} {l : List α} {rs : List γ} :
    (l.mapM f >>= fun xs => xs.mapM g) = ok rs ↔ l.mapM (fun a => f a >>= g) = ok rs := by
  rw [bind_eq_ok, mapM_eq_ok_iff]
  induction l generalizing rs with
  | nil =>
    constructor
    · rintro ⟨xs, hxs, h⟩
      simp at hxs
      subst hxs
      simpa [mapM_eq_ok_iff] using h
    · intro h
      exact ⟨[], by simp, by simpa [mapM_eq_ok_iff] using h⟩
  | cons a l ih =>
    cases rs with
    | nil =>
      simp only [List.map_nil, List.map_cons, reduceCtorEq, iff_false, not_exists, not_and]
      intro xs hxs h
      have h1 := mapM_length hxs
      have h2 := mapM_length h
      simp at h1 h2; omega
    | cons r rs =>
      simp only [List.map_cons, List.cons.injEq, ← ih, bind_eq_ok]
      constructor
      · rintro ⟨xs, hxs, h⟩
        rw [mapM_eq_ok_iff] at hxs h
        cases xs with
        | nil => simp at hxs
        | cons x xs =>
          simp only [List.map_cons, List.cons.injEq] at hxs h
          exact ⟨⟨x, hxs.1, h.1⟩, xs, mapM_eq_ok_iff.mpr hxs.2, mapM_eq_ok_iff.mpr h.2⟩
      · rintro ⟨⟨x, hx, hr⟩, xs, hxs, h⟩
        refine ⟨x :: xs, ?_, ?_⟩ <;> rw [mapM_eq_ok_iff] at * <;> simp [*]

theorem mapM_map_res {α β γ : Type} (f : α → Res β) (g : β → γ) (l : List α) :
    (l.mapM f).map (List.map g) = l.mapM (fun a => (f a).map g) := by
  induction l with
  | nil => rfl
  | cons a l ih =>
    rw [List.mapM_cons, List.mapM_cons, ← ih]
    cases f a <;> simp
    cases l.mapM f <;> simp

theorem mapM_ok_of {α β : Type} {f : α → Res β} {l : List α} (h : ∀ a ∈ l, ∃ b, f a = ok b) :
    ∃ rs, l.mapM f = ok rs := by
  induction l with
  | nil => exact ⟨[], rfl⟩
  | cons a l ih =>
    obtain ⟨b, hb⟩ := h a (by simp)
    obtain ⟨rs, hrs⟩ := ih fun x hx => h x (by simp [hx])
    exact ⟨b :: rs, by rw [List.mapM_cons, hb, hrs]; rfl⟩

theorem mapM_congr' {α β : Type} {f g : α → Res β} {l : List α} (h : ∀ a ∈ l, f a = g a) :
    l.mapM f = l.mapM g := by
  induction l with
  | nil => rfl
  | cons a l ih =>
    rw [List.mapM_cons, List.mapM_cons, h a (by simp), ih fun x hx => h x (by simp [hx])]

end FF.Res
