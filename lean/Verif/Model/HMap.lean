import Verif.Model.Basic

/-!
# Hash maps

`std::collections::HashMap` as an association list with distinct keys. The list order is the
insertion order; wherever the crate observes the iteration order of a `HashMap`, the model takes the
order as an additional, universally quantified argument instead of using this list order.
-/

namespace FF

/-- `HashMap<K, V>` (users: src/chunks/vocab/mod.rs:68-76, src/subword.rs:142-223,
src/embeddings.rs:230-236, src/chunks/vocab/subword.rs:457-490). -/
structure HMap (K V : Type) where
  entries : List (K × V)
deriving DecidableEq, Repr

namespace HMap

variable {K V : Type} [DecidableEq K]

/-- `HashMap::new`. User: src/chunks/vocab/mod.rs:69. -/
def empty : HMap K V := ⟨[]⟩

/-- Lookup in an association list. Part of `HashMap::get`, src/chunks/vocab/simple.rs:38. -/
def find (k : K) : List (K × V) → Option V
  | [] => none
  | (k', v) :: es => if k' = k then some v else find k es

/-- Replace the value of the first entry with key `k`. Part of `HashMap::insert`, src/chunks/vocab/mod.rs:72. -/
def replace (k : K) (v : V) : List (K × V) → List (K × V)
  | [] => []
  | (k', v') :: es => if k' = k then (k', v) :: es else (k', v') :: replace k v es

/-- `HashMap::get`. Users: src/chunks/vocab/simple.rs:38, src/chunks/vocab/subword.rs:161, src/subword.rs:228.
-/
def get (m : HMap K V) (k : K) : Option V := find k m.entries

/-- `HashMap::insert` (an existing key keeps its place and gets the new value). Users:
src/chunks/vocab/mod.rs:72, src/subword.rs:209, and `entry(..).or_insert(..)` at src/subword.rs:207. -/
def insert (m : HMap K V) (k : K) (v : V) : HMap K V :=
  match find k m.entries with
  | some _ => ⟨replace k v m.entries⟩
  | none => ⟨m.entries ++ [(k, v)]⟩

/-- `HashMap::len`. Users: src/chunks/vocab/simple.rs:29, src/subword.rs:170, :206. -/
def len (m : HMap K V) : Nat := m.entries.length

/-- `HashMap::keys`, in list order. Users: the iteration over a map, src/chunks/vocab/subword.rs:485,
src/embeddings.rs:236. -/
def keys (m : HMap K V) : List K := m.entries.map (·.1)

/-! ### Lemmas -/

theorem find_none_iff {k : K} {es : List (K × V)} : find k es = none ↔ k ∉ es.map (·.1) := by
  induction es with
  | nil => simp [find]
  | cons e es ih =>
    obtain ⟨k', v'⟩ := e
    by_cases h : k' = k
    · simp [find, h]
    · have h' : ¬ k = k' := fun x => h x.symm
      simp [find, h, ih, h']

theorem find_append_single {k k' : K} {v : V} {es : List (K × V)} :
    find k (es ++ [(k', v)]) = match find k es with
      | some x => some x
      | none => if k' = k then some v else none := by
  induction es with
  | nil => simp [find]
  | cons e es ih =>
    obtain ⟨k₁, v₁⟩ := e
    by_cases h : k₁ = k
    · simp [find, h]
    · simp [find, h, ih]

theorem find_replace {k k' : K} {v : V} {es : List (K × V)} (h : find k es ≠ none) :
    find k' (replace k v es) = if k = k' then some v else find k' es := by
  induction es with
  | nil => simp [find] at h
  | cons e es ih =>
    obtain ⟨k₁, v₁⟩ := e
    by_cases h1 : k₁ = k
    · subst h1
      by_cases h2 : k₁ = k' <;> simp [replace, find, h2]
    · have h3 : find k es ≠ none := by simpa [find, h1] using h
      by_cases h2 : k₁ = k'
      · subst h2
        have : ¬ k = k₁ := fun x => h1 x.symm
        simp [replace, find, h1, this]
      · simp [replace, find, h1, h2, ih h3]

theorem map_fst_replace {k : K} {v : V} {es : List (K × V)} :
    (replace k v es).map (·.1) = es.map (·.1) := by
  induction es with
  | nil => rfl
  | cons e es ih =>
    obtain ⟨k₁, v₁⟩ := e
    by_cases h : k₁ = k <;> simp [replace, h, ih]

theorem get_insert (m : HMap K V) (k k' : K) (v : V) :
    (m.insert k v).get k' = if k = k' then some v else m.get k' := by
  unfold insert get
  cases h : find k m.entries with
  | some x => simp [find_replace (by rw [h]; simp : find k m.entries ≠ none)]
  | none =>
    simp only [find_append_single]
    by_cases hk : k = k'
    · subst hk; simp [h]
    · simp only [hk, if_false]
      cases find k' m.entries <;> rfl

theorem keys_insert (m : HMap K V) (k : K) (v : V) :
    (m.insert k v).keys = if k ∈ m.keys then m.keys else m.keys ++ [k] := by
  unfold insert keys
  cases h : find k m.entries with
  | some x =>
    have : k ∈ m.entries.map (·.1) := by
      apply Classical.byContradiction; intro hn
      rw [find_none_iff.mpr hn] at h; simp at h
    rw [if_pos this]; exact map_fst_replace
  | none =>
    rw [if_neg (find_none_iff.mp h)]; simp

theorem nodup_keys_insert {m : HMap K V} (h : m.keys.Nodup) (k : K) (v : V) :
    (m.insert k v).keys.Nodup := by
  rw [keys_insert]
  split
  · exact h
  · rename_i hk
    rw [List.nodup_append]
    exact ⟨h, by simp, by simp; intro a ha he; exact hk (he ▸ ha)⟩

theorem get_eq_none_iff {m : HMap K V} {k : K} : m.get k = none ↔ k ∉ m.keys := find_none_iff

theorem mem_entries_of_get {m : HMap K V} {k : K} {v : V} (h : m.get k = some v) :
    (k, v) ∈ m.entries := by
  unfold get at h
  generalize m.entries = es at h
  induction es with
  | nil => simp [find] at h
  | cons e es ih =>
    obtain ⟨k₁, v₁⟩ := e
    by_cases hk : k₁ = k
    · simp [find, hk] at h; simp [hk, h]
    · simp [find, hk] at h; simp [ih h]

theorem get_of_mem_entries {m : HMap K V} (hn : m.keys.Nodup) {k : K} {v : V}
    (h : (k, v) ∈ m.entries) : m.get k = some v := by
  unfold get
  unfold keys at hn
  generalize m.entries = es at h hn
  induction es with
  | nil => simp at h
  | cons e es ih =>
    obtain ⟨k₁, v₁⟩ := e
    simp only [List.map_cons, List.nodup_cons] at hn
    rcases List.mem_cons.mp h with h | h
    · simp only [Prod.mk.injEq] at h; simp [find, h.1, h.2]
    · have : ¬ k₁ = k := by
        intro hk; subst hk
        exact hn.1 (List.mem_map.mpr ⟨(k₁, v), h, rfl⟩)
      simp [find, this, ih h hn.2]

@[simp] theorem get_empty (k : K) : (empty : HMap K V).get k = none := rfl
@[simp] theorem keys_empty : (empty : HMap K V).keys = [] := rfl

theorem len_eq_keys_length (m : HMap K V) : m.len = m.keys.length := by simp [len, keys]

end HMap

end FF
