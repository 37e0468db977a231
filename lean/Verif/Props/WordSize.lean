import Verif.Model.WordSize
import Verif.Props.EmbeddingsIO

/-!
# C94: 32-bit and 64-bit machines
-/

namespace FF

open Rd Res

/-! ## On 64-bit machines the readers are those of the rest of the model -/

theorem readU64_lt {d : Bytes} {pos n q : Nat} (h : readU64 d pos = .ok (n, q)) : n < 2 ^ 64 := by
  unfold readU64 at h
  obtain ⟨bs, p, hb, h⟩ := Rd.bind_ok.mp h
  cases h
  have h8 : bs.length = 8 := by
    obtain ⟨-, rfl, hl⟩ := readExact_ok hb
    have := hl (by decide)
    simp only [List.length_take, List.length_drop]
    omega
  have := leVal_lt bs
  rwa [h8] at this

theorem readU64_congr {α : Type} {f g : Nat → Rd α} (h : ∀ n, n < 2 ^ 64 → f n = g n) :
    (readU64 >>= f) = (readU64 >>= g) := by
  funext d pos
  simp only [bind_apply]
  cases hr : readU64 d pos with
  | ok r =>
    obtain ⟨n, q⟩ := r
    simp only [ok_bind]
    rw [h n (readU64_lt hr)]
  | err e => rfl
  | panic => rfl

namespace WordSize

theorem isizeMax_64 : WordSize.isizeMax .w64 = FF.isizeMax := by decide
theorem usizeMax_64 : WordSize.usizeMax .w64 = FF.usizeMax := by decide

theorem tryInto_64 {n : Nat} (h : n < 2 ^ 64) : tryInto .w64 n = pure n := by
  unfold tryInto
  rw [if_pos (by rw [usizeMax_64]; unfold FF.usizeMax; omega)]

theorem cast_64 {n : Nat} (h : n < 2 ^ 64) : cast .w64 n = n := Nat.mod_eq_of_lt h

theorem alloc_64 : alloc .w64 = Rd.alloc := by
  funext size n
  unfold alloc Rd.alloc
  rw [isizeMax_64]

theorem allocArray_64 : allocArray .w64 = FF.allocArray := by
  funext size n
  unfold allocArray FF.allocArray
  rw [isizeMax_64]

theorem readHeader_64 : readHeader .w64 = Header.read := by
  unfold readHeader Header.read
  rw [alloc_64]

theorem readMetadata_64 {T : Type} [Toml T] : readMetadata .w64 = (FF.readMetadata : Rd (Metadata T)) := by
  unfold readMetadata FF.readMetadata
  rw [alloc_64]
  congr 1
  funext _
  exact readU64_congr fun n h => by rw [cast_64 h]

theorem readOptMetadata_64 {T : Type} [Toml T] :
    readOptMetadata .w64 = (FF.readOptMetadata : Rd (Option (Metadata T))) := by
  unfold readOptMetadata FF.readOptMetadata
  rw [readHeader_64, readMetadata_64]
  rfl

theorem readString_64 : readString .w64 = FF.readString := by
  unfold readString FF.readString
  rw [alloc_64]

theorem readVocabItems_64 : readVocabItems .w64 = FF.readVocabItems := by
  funext n
  unfold readVocabItems FF.readVocabItems
  rw [alloc_64, readString_64]; rfl

theorem readSimple_64 : readSimple .w64 = SimpleVocab.read := by
  unfold readSimple SimpleVocab.read
  rw [readVocabItems_64]
  congr 1
  funext _
  congr 1
  funext _
  exact readU64_congr fun n h => by rw [tryInto_64 h]; rfl

theorem newWithBoundaries_64 {I : Type} [Indexer I] (words : List Str) (minN maxN : Nat) (ix : I) (bow eow : Str) :
    newWithBoundaries .w64 words minN maxN ix bow eow = SubwordVocab.newWithBoundaries words minN maxN ix bow eow := by
  unfold newWithBoundaries SubwordVocab.newWithBoundaries
  rw [usizeMax_64]
  dsimp only
  congr 1
  funext _
  congr 1
  funext ub
  by_cases h : words.length + ub ≤ FF.usizeMax
  · have h' : ub ≤ FF.usizeMax := by omega
    simp only [h, h', decide_true, assert_true, ok_bind]
  · by_cases h' : ub ≤ FF.usizeMax
    · simp only [h, h', decide_true, assert_true, ok_bind]
    · simp only [h, h', decide_false]; rfl

theorem readBucketed_64 {I : Type} [BucketIndexer I] (id : ChunkId) :
    (readBucketed .w64 id : Rd (SubwordVocab I)) = FF.readBucketed id := by
  unfold readBucketed FF.readBucketed
  rw [readVocabItems_64]
  congr 1
  funext _
  congr 1
  funext _
  refine readU64_congr fun n h => ?_
  rw [cast_64 h]
  simp only [newWithBoundaries_64]
  rfl

theorem readNgrams_64 : readNgrams .w64 = FF.readNgrams := by
  funext n
  unfold readNgrams FF.readNgrams readNgram FF.readNgram
  rw [alloc_64]; rfl

theorem readExplicit_64 : readExplicit .w64 = FF.readExplicit := by
  unfold readExplicit FF.readExplicit
  rw [readVocabItems_64, readNgrams_64]
  congr 1
  funext _
  congr 1
  funext _
  refine readU64_congr fun n h => readU64_congr fun m h' => ?_
  rw [cast_64 h, cast_64 h']
  simp only [newWithBoundaries_64]
  rfl

theorem readFloret_64 : readFloret .w64 = FF.readFloret := by
  unfold readFloret FF.readFloret
  simp only [readString_64, newWithBoundaries_64]

theorem readVocabWrap_64 : readVocabWrap .w64 = FF.readVocabWrap := by
  unfold readVocabWrap FF.readVocabWrap
  rw [readSimple_64, readExplicit_64, readFloret_64, readBucketed_64, readBucketed_64]
  rfl

theorem readNdArray_64 : readNdArray .w64 = FF.readNdArray := by
  unfold readNdArray FF.readNdArray readNdArrayHead
  rw [allocArray_64]
  simp only [bind_assoc]
  congr 1
  funext _
  congr 1
  funext _
  refine readU64_congr fun n h => ?_
  rw [tryInto_64 h]
  simp only [pure_bind]

theorem readPq_64 : readPq .w64 = FF.readPq := by
  unfold readPq FF.readPq readProjection FF.readProjection readQuantizers FF.readQuantizers
  rw [allocArray_64]
  congr 1; funext _
  congr 1; funext _
  congr 1; funext _
  congr 1; funext _
  congr 1; funext _
  refine readU64_congr fun n h => ?_
  rw [tryInto_64 h]
  rfl

theorem readQuantizedArray_64 : readQuantizedArray .w64 = FF.readQuantizedArray := by
  unfold readQuantizedArray FF.readQuantizedArray readQuantizedHead readQuantizedNorms FF.readQuantizedNorms
  rw [allocArray_64, readPq_64]
  simp only [bind_assoc, pure_bind]

theorem readStorageWrap_64 : readStorageWrap .w64 = FF.readStorageWrap := by
  unfold readStorageWrap FF.readStorageWrap
  rw [readNdArray_64, readQuantizedArray_64]
  rfl

theorem readNorms_64 : readNorms .w64 = FF.readNorms := by
  unfold readNorms FF.readNorms
  rw [allocArray_64]
  congr 1; funext _
  congr 1; funext _
  refine readU64_congr fun n h => ?_
  rw [tryInto_64 h]
  rfl

end WordSize

/-! ## Comparing two readers -/

/-- Specification: what the first reader accepts, the second accepts with the same result. -/
def Agrees {α : Type} (p q : Rd α) : Prop := ∀ d pos r, p d pos = .ok r → q d pos = .ok r

/-- Specification: what the second reader accepts in less than 4 GiB of data, the first accepts with the same result, or it
panics or reports an overflow. -/
def Keeps {α : Type} (p q : Rd α) : Prop :=
  ∀ d pos r, d.length < 2 ^ 32 → q d pos = .ok r → p d pos = .ok r ∨ p d pos = .panic ∨ p d pos = .err .overflow

theorem Agrees.refl {α : Type} (p : Rd α) : Agrees p p := fun _ _ _ h => h
theorem Keeps.refl {α : Type} (p : Rd α) : Keeps p p := fun _ _ _ _ h => .inl h

theorem Agrees.bind {α β : Type} {p q : Rd α} {f g : α → Rd β} (h : Agrees p q) (hf : ∀ a, Agrees (f a) (g a)) :
    Agrees (p >>= f) (q >>= g) := by
  intro d pos r hr
  obtain ⟨a, p1, ha, hr⟩ := Rd.bind_ok.mp hr
  exact Rd.bind_ok.mpr ⟨a, p1, h _ _ _ ha, hf a _ _ _ hr⟩

theorem Keeps.bind {α β : Type} {p q : Rd α} {f g : α → Rd β} (h : Keeps p q) (hf : ∀ a, Keeps (f a) (g a)) :
    Keeps (p >>= f) (q >>= g) := by
  intro d pos r hd hr
  obtain ⟨a, p1, ha, hr⟩ := Rd.bind_ok.mp hr
  simp only [bind_apply]
  rcases h _ _ _ hd ha with h1 | h1 | h1
  · rw [h1]; exact hf a _ _ _ hd hr
  · rw [h1]; exact .inr (.inl rfl)
  · rw [h1]; exact .inr (.inr rfl)

theorem Agrees.replicateM {α : Type} {p q : Rd α} (h : Agrees p q) (n : Nat) :
    Agrees (Rd.replicateM n p) (Rd.replicateM n q) := by
  induction n with
  | zero => exact .refl _
  | succ n ih => exact h.bind fun _ => ih.bind fun _ => .refl _

theorem Keeps.replicateM {α : Type} {p q : Rd α} (h : Keeps p q) (n : Nat) :
    Keeps (Rd.replicateM n p) (Rd.replicateM n q) := by
  induction n with
  | zero => exact .refl _
  | succ n ih => exact h.bind fun _ => ih.bind fun _ => .refl _

theorem Agrees.assert {P Q : Prop} [Decidable P] [Decidable Q] (h : P → Q) :
    Agrees (lift (Res.assert (decide P))) (lift (Res.assert (decide Q))) := by
  intro d pos r hr
  by_cases hp : P
  · rw [decide_eq_true (h hp)]; rw [decide_eq_true hp] at hr; exact hr
  · rw [decide_eq_false hp] at hr; cases hr

theorem Keeps.assert {P Q : Prop} [Decidable P] [Decidable Q] :
    Keeps (lift (Res.assert (decide P))) (lift (Res.assert (decide Q))) := by
  intro d pos r _ hr
  by_cases hp : P
  · by_cases hq : Q
    · rw [decide_eq_true hq] at hr; rw [decide_eq_true hp]; exact .inl hr
    · rw [decide_eq_false hq] at hr; cases hr
  · rw [decide_eq_false hp]; exact .inr (.inl rfl)

namespace WordSize

variable (w : WordSize)

theorem isizeMax_le : w.isizeMax ≤ FF.isizeMax := by cases w <;> decide
theorem usizeMax_le : w.usizeMax ≤ FF.usizeMax := by cases w <;> decide

theorem alloc_agrees {s s' n : Nat} (h : s * n ≤ w.isizeMax → s' * n ≤ FF.isizeMax) :
    Agrees (w.alloc s n) (Rd.alloc s' n) := Agrees.assert h

theorem alloc_agrees' (s n : Nat) : Agrees (w.alloc s n) (Rd.alloc s n) :=
  w.alloc_agrees fun h => Nat.le_trans h w.isizeMax_le

theorem alloc_keeps (s s' n : Nat) : Keeps (w.alloc s n) (Rd.alloc s' n) := Keeps.assert

theorem allocArray_agrees (s : Nat) (ds : List Nat) : Agrees (w.allocArray s ds) (FF.allocArray s ds) :=
  Agrees.assert fun h => ⟨Nat.le_trans h.1 w.isizeMax_le, Nat.le_trans h.2 w.isizeMax_le⟩

theorem allocArray_keeps (s : Nat) (ds : List Nat) : Keeps (w.allocArray s ds) (FF.allocArray s ds) := Keeps.assert

theorem tryInto_agrees (n : Nat) : Agrees (w.tryInto n) (pure n) := by
  intro d pos r h
  unfold tryInto at h
  split at h
  · exact h
  · cases h

theorem tryInto_keeps (n : Nat) : Keeps (w.tryInto n) (pure n) := by
  intro d pos r _ h
  unfold tryInto
  split
  · exact .inl h
  · exact .inr (.inr rfl)

theorem tryInto_agrees' {α : Type} {p : Rd Nat} {f g : Nat → Rd α} (h : ∀ n, Agrees (f n) (g n)) :
    Agrees (p >>= fun n => w.tryInto n >>= f) (p >>= g) := by
  refine (Agrees.refl p).bind fun n => ?_
  have := (w.tryInto_agrees n).bind h
  rwa [pure_bind] at this

theorem tryInto_keeps' {α : Type} {p : Rd Nat} {f g : Nat → Rd α} (h : ∀ n, Keeps (f n) (g n)) :
    Keeps (p >>= fun n => w.tryInto n >>= f) (p >>= g) := by
  refine (Keeps.refl p).bind fun n => ?_
  have := (w.tryInto_keeps n).bind h
  rwa [pure_bind] at this

/-- Walk through two readers in parallel. -/
macro "agrees_tac" : tactic => `(tactic| repeat' first
  | with_reducible exact Agrees.refl _ | with_reducible exact alloc_agrees' _ _ _
  | with_reducible exact allocArray_agrees _ _ _
  | (with_reducible refine tryInto_agrees' _ fun _ => ?_) | (with_reducible refine Agrees.bind ?_ fun _ => ?_))
/-- Walk through two readers in parallel. -/
macro "keeps_tac" : tactic => `(tactic| repeat' first
  | with_reducible exact Keeps.refl _ | with_reducible exact alloc_keeps _ _ _ _
  | with_reducible exact allocArray_keeps _ _ _
  | (with_reducible refine tryInto_keeps' _ fun _ => ?_) | (with_reducible refine Keeps.bind ?_ fun _ => ?_))

theorem readHeader_agrees : Agrees w.readHeader Header.read := by
  unfold readHeader Header.read
  agrees_tac
  split
  · exact .refl _
  · agrees_tac
    split
    · exact .refl _
    · agrees_tac

theorem readHeader_keeps : Keeps w.readHeader Header.read := by
  unfold readHeader Header.read
  keeps_tac
  split
  · exact .refl _
  · keeps_tac
    split
    · exact .refl _
    · keeps_tac

theorem readString_agrees : Agrees w.readString FF.readString := by
  unfold readString FF.readString; agrees_tac

theorem readString_keeps : Keeps w.readString FF.readString := by
  unfold readString FF.readString; keeps_tac

theorem readVocabItems_agrees (n : Nat) : Agrees (w.readVocabItems n) (FF.readVocabItems n) := by
  unfold readVocabItems FF.readVocabItems
  refine (w.alloc_agrees fun h => ?_).bind fun _ => w.readString_agrees.replicateM n
  cases w
  · change 12 * n ≤ 2 ^ 31 - 1 at h
    unfold FF.isizeMax; omega
  · exact h

theorem readVocabItems_keeps (n : Nat) : Keeps (w.readVocabItems n) (FF.readVocabItems n) := by
  unfold readVocabItems FF.readVocabItems
  exact (w.alloc_keeps _ _ _).bind fun _ => w.readString_keeps.replicateM n

theorem readNgram_agrees : Agrees w.readNgram FF.readNgram := by
  unfold readNgram FF.readNgram; agrees_tac

theorem readNgram_keeps : Keeps w.readNgram FF.readNgram := by
  unfold readNgram FF.readNgram; keeps_tac

theorem readNgrams_agrees (n : Nat) : Agrees (w.readNgrams n) (FF.readNgrams n) := by
  unfold readNgrams FF.readNgrams
  refine (w.alloc_agrees fun h => ?_).bind fun _ => w.readNgram_agrees.replicateM n
  cases w
  · change 20 * n ≤ 2 ^ 31 - 1 at h
    unfold FF.isizeMax; omega
  · exact h

theorem readNgrams_keeps (n : Nat) : Keeps (w.readNgrams n) (FF.readNgrams n) := by
  unfold readNgrams FF.readNgrams
  exact (w.alloc_keeps _ _ _).bind fun _ => w.readNgram_keeps.replicateM n

theorem readSimple_agrees : Agrees w.readSimple SimpleVocab.read := by
  unfold readSimple SimpleVocab.read
  agrees_tac
  exact w.readVocabItems_agrees _

theorem readSimple_keeps : Keeps w.readSimple SimpleVocab.read := by
  unfold readSimple SimpleVocab.read
  keeps_tac
  exact w.readVocabItems_keeps _

section
variable {I : Type} [Indexer I] (words : List Str) (minN maxN : Nat) (ix : I) (bow eow : Str)

theorem new_agrees : Agrees (lift (w.newWithBoundaries words minN maxN ix bow eow))
    (lift (SubwordVocab.newWithBoundaries words minN maxN ix bow eow)) := by
  intro d pos r h
  rw [Rd.lift_apply] at h ⊢
  unfold newWithBoundaries at h
  unfold SubwordVocab.newWithBoundaries
  dsimp only at h ⊢
  by_cases h1 : words.length = (createIndices words).len
  · simp only [h1, decide_true, assert_true, ok_bind] at h ⊢
    cases hu : Indexer.upperBound ix with
    | ok ub =>
      rw [hu] at h
      simp only [ok_bind] at h ⊢
      by_cases h2 : ub ≤ w.usizeMax
      · simp only [h2, decide_true, assert_true, ok_bind] at h
        by_cases h3 : (createIndices words).len + ub ≤ w.usizeMax
        · have h4 := Nat.le_trans h3 w.usizeMax_le
          simp only [h3, h4, decide_true, assert_true, ok_bind] at h ⊢
          exact h
        · simp only [h3, decide_false] at h; cases h
      · simp only [h2, decide_false] at h; cases h
    | err e => rw [hu] at h; cases h
    | panic => rw [hu] at h; cases h
  · simp only [h1, decide_false] at h; cases h

theorem new_keeps : Keeps (lift (w.newWithBoundaries words minN maxN ix bow eow))
    (lift (SubwordVocab.newWithBoundaries words minN maxN ix bow eow)) := by
  intro d pos r _ h
  rw [Rd.lift_apply] at h ⊢
  unfold SubwordVocab.newWithBoundaries at h
  unfold newWithBoundaries
  dsimp only at h ⊢
  by_cases h1 : words.length = (createIndices words).len
  · simp only [h1, decide_true, assert_true, ok_bind] at h ⊢
    cases hu : Indexer.upperBound ix with
    | ok ub =>
      rw [hu] at h
      simp only [ok_bind] at h ⊢
      by_cases h2 : ub ≤ w.usizeMax
      · simp only [h2, decide_true, assert_true, ok_bind]
        by_cases h3 : (createIndices words).len + ub ≤ w.usizeMax
        · have h4 := Nat.le_trans h3 w.usizeMax_le
          simp only [h3, h4, decide_true, assert_true, ok_bind] at h ⊢
          exact .inl h
        · simp only [h3, decide_false]; exact .inr (.inl rfl)
      · simp only [h2, decide_false]; exact .inr (.inl rfl)
    | err e => rw [hu] at h; cases h
    | panic => rw [hu] at h; cases h
  · simp only [h1, decide_false] at h; cases h

end

theorem readFloret_agrees : Agrees w.readFloret FF.readFloret := by
  unfold readFloret FF.readFloret
  agrees_tac
  split
  · exact .refl _
  · agrees_tac
    · exact w.readString_agrees
    · exact w.readString_agrees
    · exact w.new_agrees _ _ _ _ _ _

theorem readFloret_keeps : Keeps w.readFloret FF.readFloret := by
  unfold readFloret FF.readFloret
  keeps_tac
  split
  · exact .refl _
  · keeps_tac
    · exact w.readString_keeps
    · exact w.readString_keeps
    · exact w.new_keeps _ _ _ _ _ _

theorem readNdArray_agrees : Agrees w.readNdArray FF.readNdArray := by
  unfold readNdArray FF.readNdArray readNdArrayHead
  simp only [bind_assoc, pure_bind]
  agrees_tac

theorem readNdArray_keeps : Keeps w.readNdArray FF.readNdArray := by
  unfold readNdArray FF.readNdArray readNdArrayHead
  simp only [bind_assoc, pure_bind]
  keeps_tac

theorem readProjection_agrees (a b : Nat) : Agrees (w.readProjection a b) (FF.readProjection a b) := by
  unfold readProjection FF.readProjection
  agrees_tac
  split <;> agrees_tac

theorem readProjection_keeps (a b : Nat) : Keeps (w.readProjection a b) (FF.readProjection a b) := by
  unfold readProjection FF.readProjection
  keeps_tac
  split <;> keeps_tac

theorem readPq_agrees : Agrees w.readPq FF.readPq := by
  unfold readPq FF.readPq
  agrees_tac
  split
  · exact .refl _
  · agrees_tac
    · exact w.readProjection_agrees _ _
    · unfold readQuantizers FF.readQuantizers; agrees_tac

theorem readPq_keeps : Keeps w.readPq FF.readPq := by
  unfold readPq FF.readPq
  keeps_tac
  split
  · exact .refl _
  · keeps_tac
    · exact w.readProjection_keeps _ _
    · unfold readQuantizers FF.readQuantizers; keeps_tac

theorem readQuantizedArray_agrees : Agrees w.readQuantizedArray FF.readQuantizedArray := by
  unfold readQuantizedArray FF.readQuantizedArray readQuantizedHead readQuantizedNorms FF.readQuantizedNorms
  simp only [bind_assoc, pure_bind]
  agrees_tac
  · exact w.readPq_agrees
  · split <;> agrees_tac

theorem readQuantizedArray_keeps : Keeps w.readQuantizedArray FF.readQuantizedArray := by
  unfold readQuantizedArray FF.readQuantizedArray readQuantizedHead readQuantizedNorms FF.readQuantizedNorms
  simp only [bind_assoc, pure_bind]
  keeps_tac
  · exact w.readPq_keeps
  · split <;> keeps_tac

theorem readNorms_agrees : Agrees w.readNorms FF.readNorms := by
  unfold readNorms FF.readNorms
  agrees_tac

theorem readNorms_keeps : Keeps w.readNorms FF.readNorms := by
  unfold readNorms FF.readNorms
  keeps_tac

end WordSize

/-! ## Numbers that are cast -/

theorem readString_long {d : Bytes} {pos q : Nat} {s : Str} (h : FF.readString d pos = .ok (s, q)) :
    pos + 4 ≤ q ∧ q ≤ d.length := by
  unfold FF.readString at h
  obtain ⟨n, p1, h1, h⟩ := Rd.bind_ok.mp h
  obtain ⟨u, p2, h2, h3⟩ := Rd.bind_ok.mp h
  obtain ⟨bs, p3, h4, h5⟩ := Rd.bind_ok.mp h3
  have e2 : p2 = p1 := by
    unfold Rd.alloc at h2
    cases hb : decide (1 * n ≤ FF.isizeMax) <;> rw [hb] at h2 <;> cases h2
    rfl
  have e5 : q = p3 := by
    cases hu : utf8Decode bs <;> rw [hu] at h5 <;> cases h5
    rfl
  unfold readU32 at h1
  obtain ⟨b4, p4, h6, h7⟩ := Rd.bind_ok.mp h1
  cases h7
  obtain ⟨rfl, -, hl⟩ := readExact_ok h6
  obtain ⟨rfl, -, hl'⟩ := readExact_ok h4
  have := hl (by decide)
  subst e2 e5
  refine ⟨by omega, ?_⟩
  by_cases hn : leVal b4 = 0
  · omega
  · exact hl' hn

theorem replicateM_long {α : Type} {p : Rd α}
    (hp : ∀ {d : Bytes} {pos q : Nat} {a : α}, p d pos = .ok (a, q) → pos + 4 ≤ q ∧ q ≤ d.length)
    {n : Nat} {d : Bytes} {pos q : Nat} {as : List α} (h : Rd.replicateM n p d pos = .ok (as, q)) :
    pos + 4 * n ≤ q ∧ (n ≠ 0 → q ≤ d.length) := by
  induction n generalizing pos as with
  | zero => cases h; simp
  | succ n ih =>
    obtain ⟨a, p1, h1, h⟩ := Rd.bind_ok.mp h
    obtain ⟨as', p2, h2, h3⟩ := Rd.bind_ok.mp h
    cases h3
    obtain ⟨ha, hb⟩ := hp h1
    obtain ⟨hc, hd⟩ := ih h2
    refine ⟨by omega, fun _ => ?_⟩
    by_cases hn : n = 0
    · subst hn; cases h2; exact hb
    · exact hd hn

theorem readVocabItems_long {n : Nat} {d : Bytes} {pos q : Nat} {ws : List Str}
    (h : FF.readVocabItems n d pos = .ok (ws, q)) : 4 * n ≤ d.length := by
  unfold FF.readVocabItems at h
  obtain ⟨u, p1, -, h⟩ := Rd.bind_ok.mp h
  have := replicateM_long readString_long h
  by_cases hn : n = 0
  · subst hn; omega
  · have := this.2 hn; omega

theorem readNgram_long {d : Bytes} {pos q : Nat} {g : Str × Nat} (h : FF.readNgram d pos = .ok (g, q)) :
    pos + 4 ≤ q ∧ q ≤ d.length := by
  unfold FF.readNgram at h
  obtain ⟨n, p1, h1, h⟩ := Rd.bind_ok.mp h
  obtain ⟨u, p2, h2, h3⟩ := Rd.bind_ok.mp h
  obtain ⟨bs, p3, h4, h5⟩ := Rd.bind_ok.mp h3
  obtain ⟨item, p4, h6, h7⟩ := Rd.bind_ok.mp h5
  obtain ⟨i, p5, h8, h9⟩ := Rd.bind_ok.mp h7
  cases h9
  have e2 : p2 = p1 := by
    unfold Rd.alloc at h2
    cases hb : decide (1 * n ≤ FF.isizeMax) <;> rw [hb] at h2 <;> cases h2
    rfl
  have e5 : p4 = p3 := by
    cases hu : utf8Decode bs <;> rw [hu] at h6 <;> cases h6
    rfl
  obtain ⟨hu1, rfl⟩ := readU32_ok h1
  obtain ⟨rfl, -, -⟩ := readExact_ok h4
  unfold readU64 at h8
  obtain ⟨b8, p8, h10, h11⟩ := Rd.bind_ok.mp h8
  cases h11
  obtain ⟨rfl, -, hl⟩ := readExact_ok h10
  have := hl (by decide)
  subst e2 e5
  exact ⟨by omega, by omega⟩

theorem readNgrams_long {n : Nat} {d : Bytes} {pos q : Nat} {gs : List (Str × Nat)}
    (h : FF.readNgrams n d pos = .ok (gs, q)) : 4 * n ≤ d.length := by
  unfold FF.readNgrams at h
  obtain ⟨u, p1, -, h⟩ := Rd.bind_ok.mp h
  have := replicateM_long readNgram_long h
  by_cases hn : n = 0
  · subst hn; omega
  · have := this.2 hn; omega

namespace WordSize

variable (w : WordSize)

theorem cast_of_lt {n : Nat} (h : n < 2 ^ 32) : w.cast n = n := by
  refine Nat.mod_eq_of_lt (Nat.lt_of_lt_of_le h ?_)
  cases w <;> decide

section
variable {I : Type} [BucketIndexer I]

/-- The part of `read_bucketed_chunk` behind the number of words (on 32-bit machines). -/
def bucketedRest (n : Nat) : Rd (SubwordVocab I) := do
  let minN ← readU32
  let maxN ← readU32
  let buckets ← readU32
  let words ← w.readVocabItems n
  let ix ← lift (BucketIndexer.newBuckets buckets)
  lift (w.newWithBoundaries words minN maxN ix SubwordVocab.defaultBow SubwordVocab.defaultEow)

/-- The part of `read_bucketed_chunk` behind the number of words. -/
def bucketedRest64 (n : Nat) : Rd (SubwordVocab I) := do
  let minN ← readU32
  let maxN ← readU32
  let buckets ← readU32
  let words ← FF.readVocabItems n
  let ix ← lift (BucketIndexer.newBuckets buckets)
  lift (SubwordVocab.new words minN maxN ix)

theorem bucketedRest_agrees (n : Nat) : Agrees (w.bucketedRest n : Rd (SubwordVocab I)) (bucketedRest64 n) := by
  unfold bucketedRest bucketedRest64
  agrees_tac
  · exact w.readVocabItems_agrees _
  · exact w.new_agrees _ _ _ _ _ _

theorem bucketedRest_keeps (n : Nat) : Keeps (w.bucketedRest n : Rd (SubwordVocab I)) (bucketedRest64 n) := by
  unfold bucketedRest bucketedRest64
  keeps_tac
  · exact w.readVocabItems_keeps _
  · exact w.new_keeps _ _ _ _ _ _

theorem bucketedRest_long {n : Nat} {d : Bytes} {pos : Nat} {r : SubwordVocab I × Nat}
    (h : bucketedRest64 n d pos = .ok r) : 4 * n ≤ d.length := by
  unfold bucketedRest64 at h
  obtain ⟨_, _, -, h1⟩ := Rd.bind_ok.mp h
  obtain ⟨_, _, -, h2⟩ := Rd.bind_ok.mp h1
  obtain ⟨_, _, -, h3⟩ := Rd.bind_ok.mp h2
  obtain ⟨_, _, h4, -⟩ := Rd.bind_ok.mp h3
  exact readVocabItems_long h4

theorem readBucketed_keeps (id : ChunkId) : Keeps (w.readBucketed id : Rd (SubwordVocab I)) (FF.readBucketed id) := by
  refine (Keeps.refl _).bind fun _ => (Keeps.refl _).bind fun _ => (Keeps.refl _).bind fun n => ?_
  show Keeps (w.bucketedRest (w.cast n)) (bucketedRest64 n)
  intro d pos r hd h
  have := bucketedRest_long h
  rw [w.cast_of_lt (by omega)]
  exact w.bucketedRest_keeps n d pos r hd h

end

theorem readMetadata_keeps {T : Type} [Toml T] : Keeps w.readMetadata (FF.readMetadata : Rd (Metadata T)) := by
  refine (Keeps.refl _).bind fun _ => (Keeps.refl _).bind fun n => ?_
  dsimp only
  intro d pos r hd h
  have hn : n < 2 ^ 32 := by
    obtain ⟨_, _, -, h1⟩ := Rd.bind_ok.mp h
    obtain ⟨_, _, h2, -⟩ := Rd.bind_ok.mp h1
    obtain ⟨-, -, hl⟩ := readExact_ok h2
    by_cases h0 : n = 0
    · subst h0; decide
    · have := hl h0; omega
  rw [w.cast_of_lt hn]
  revert h hd
  revert d pos r
  show Keeps _ _
  keeps_tac

/-- The part of `read_ngram_chunk` behind the two numbers (on 32-bit machines). -/
def explicitRest (n m : Nat) : Rd ExplicitSubwordVocab := do
  let minN ← readU32
  let maxN ← readU32
  let words ← w.readVocabItems n
  let ngrams ← w.readNgrams m
  let r ← lift (ExplicitIndexer.newWithIndices ngrams)
  lift (w.newWithBoundaries words minN maxN r.1 SubwordVocab.defaultBow SubwordVocab.defaultEow)

/-- The part of `read_ngram_chunk` behind the two numbers. -/
def explicitRest64 (n m : Nat) : Rd ExplicitSubwordVocab := do
  let minN ← readU32
  let maxN ← readU32
  let words ← FF.readVocabItems n
  let ngrams ← FF.readNgrams m
  let r ← lift (ExplicitIndexer.newWithIndices ngrams)
  lift (SubwordVocab.new words minN maxN r.1)

theorem explicitRest_agrees (n m : Nat) : Agrees (w.explicitRest n m) (explicitRest64 n m) := by
  unfold explicitRest explicitRest64
  agrees_tac
  · exact w.readVocabItems_agrees _
  · exact w.readNgrams_agrees _
  · exact w.new_agrees _ _ _ _ _ _

theorem explicitRest_keeps (n m : Nat) : Keeps (w.explicitRest n m) (explicitRest64 n m) := by
  unfold explicitRest explicitRest64
  keeps_tac
  · exact w.readVocabItems_keeps _
  · exact w.readNgrams_keeps _
  · exact w.new_keeps _ _ _ _ _ _

theorem readExplicit_keeps : Keeps w.readExplicit FF.readExplicit := by
  refine (Keeps.refl _).bind fun _ => (Keeps.refl _).bind fun _ => (Keeps.refl _).bind fun n =>
    (Keeps.refl _).bind fun m => ?_
  show Keeps (w.explicitRest (w.cast n) (w.cast m)) (explicitRest64 n m)
  intro d pos r hd h
  have hn : 4 * n ≤ d.length ∧ 4 * m ≤ d.length := by
    have h := h
    unfold explicitRest64 at h
    obtain ⟨_, _, -, h1⟩ := Rd.bind_ok.mp h
    obtain ⟨_, _, -, h2⟩ := Rd.bind_ok.mp h1
    obtain ⟨_, _, h3, h4⟩ := Rd.bind_ok.mp h2
    obtain ⟨_, _, h5, -⟩ := Rd.bind_ok.mp h4
    exact ⟨readVocabItems_long h3, readNgrams_long h5⟩
  rw [w.cast_of_lt (by omega), w.cast_of_lt (by omega)]
  exact w.explicitRest_keeps n m d pos r hd h

theorem readOptMetadata_keeps {T : Type} [Toml T] :
    Keeps w.readOptMetadata (FF.readOptMetadata : Rd (Option (Metadata T))) := by
  refine w.readHeader_keeps.bind fun h => ?_
  cases h.ids with
  | nil => exact .refl _
  | cons i is =>
    by_cases hi : i = .metadata
    · simp only [hi, if_true]
      exact w.readMetadata_keeps.bind fun _ => .refl _
    · simp only [hi, if_false]
      exact .refl _

theorem readVocabWrap_keeps : Keeps w.readVocabWrap FF.readVocabWrap := by
  refine (Keeps.refl _).bind fun id => ?_
  cases id
  case simpleVocab => exact w.readSimple_keeps.bind fun _ => .refl _
  case fastTextSubwordVocab => exact (w.readBucketed_keeps _).bind fun _ => .refl _
  case bucketSubwordVocab => exact (w.readBucketed_keeps _).bind fun _ => .refl _
  case explicitSubwordVocab => exact w.readExplicit_keeps.bind fun _ => .refl _
  case floretSubwordVocab => exact w.readFloret_keeps.bind fun _ => .refl _
  all_goals exact .refl _

theorem readStorageWrap_keeps : Keeps w.readStorageWrap FF.readStorageWrap := by
  refine (Keeps.refl _).bind fun id => ?_
  cases id
  case ndArray => exact w.readNdArray_keeps.bind fun _ => .refl _
  case quantizedArray => exact w.readQuantizedArray_keeps.bind fun _ => .refl _
  all_goals exact .refl _

theorem readStorageWrap_agrees : Agrees w.readStorageWrap FF.readStorageWrap := by
  refine (Agrees.refl _).bind fun id => ?_
  cases id
  case ndArray => exact w.readNdArray_agrees.bind fun _ => .refl _
  case quantizedArray => exact w.readQuantizedArray_agrees.bind fun _ => .refl _
  all_goals exact .refl _

end WordSize

/-! ## C94 -/

/-- C94 on 64-bit machines: the readers are those of all other properties. -/
theorem c94_64 {T : Type} [Toml T] : (WordSize.readEmbeddings .w64 : Bytes → Nat → Res (Embeddings T _ _ _)) = Embeddings.read := by
  funext d pos
  unfold WordSize.readEmbeddings Embeddings.read Embeddings.readWith Embeddings.readHead
  rw [WordSize.readOptMetadata_64, WordSize.readVocabWrap_64, WordSize.readStorageWrap_64, WordSize.readNorms_64]
  show ((FF.readOptMetadata : Rd (Option (Metadata T))) d pos).bind _ =
    (((FF.readOptMetadata : Rd (Option (Metadata T))) d pos).bind _).bind _
  cases (FF.readOptMetadata : Rd (Option (Metadata T))) d pos with
  | err e => rfl
  | panic => rfl
  | ok r =>
    show (FF.readVocabWrap d r.2).bind _ = ((FF.readVocabWrap d r.2).bind _).bind _
    cases FF.readVocabWrap d r.2 <;> rfl

/-- C94 for simple and floret vocabularies, dense and quantized matrices and norms: whatever a machine accepts, a 64-bit machine
accepts with the same result. -/
theorem c94_agrees (w : WordSize) :
    Agrees w.readSimple readChunk ∧ Agrees w.readFloret readChunk ∧ Agrees w.readNdArray readChunk ∧
      Agrees w.readQuantizedArray readChunk ∧ Agrees w.readNorms readChunk ∧ Agrees w.readStorageWrap readChunk :=
  ⟨w.readSimple_agrees, w.readFloret_agrees, w.readNdArray_agrees, w.readQuantizedArray_agrees, w.readNorms_agrees,
    w.readStorageWrap_agrees⟩

theorem WordSize.tryInto_overflow {w : WordSize} {n : Nat} (h : w.usizeMax < n) (d : Bytes) (pos : Nat) :
    w.tryInto n d pos = .err .overflow := by
  unfold WordSize.tryInto
  rw [if_neg (by omega)]; rfl

theorem head_overflow {α : Type} {w : WordSize} {d : Bytes} {pos l n : Nat} {id : ChunkId} {f : Nat → Rd α}
    (hid : id ≠ .header) (h : u32At d pos = some id.code) (hl : u64At d (pos + 4) = some l)
    (hn : u64At d (pos + 12) = some n) (hw : w.usizeMax < n) :
    (ensureChunkType id >>= fun _ => readU64 >>= fun _ => readU64 >>= fun n => w.tryInto n >>= f) d pos =
      .err .overflow := by
  rw [bind_apply, ensureChunkType_some hid h]
  simp only [ok_bind]
  rw [bind_apply, readU64_some hl]
  simp only [ok_bind]
  rw [bind_apply, readU64_some hn]
  simp only [ok_bind]
  rw [bind_apply, WordSize.tryInto_overflow hw]
  rfl

/-- C94, the numbers that are checked: a number of words, rows, norms or quantized vectors that does not fit into `usize` is
an overflow error. -/
theorem c94_overflow (w : WordSize) (d : Bytes) (pos l n : Nat) (hl : u64At d (pos + 4) = some l)
    (hw : 2 ^ w.bits ≤ n) :
    (u32At d pos = some 1 → u64At d (pos + 12) = some n → w.readSimple d pos = .err .overflow) ∧
    (u32At d pos = some 2 → u64At d (pos + 12) = some n → w.readNdArray d pos = .err .overflow) ∧
    (u32At d pos = some 6 → u64At d (pos + 12) = some n → w.readNorms d pos = .err .overflow) ∧
    (u32At d pos = some 4 → u64At d (pos + 32) = some n → w.readQuantizedArray d pos = .err .overflow) := by
  have hw' : w.usizeMax < n := by unfold WordSize.usizeMax; have := Nat.two_pow_pos w.bits; omega
  refine ⟨fun h hn => head_overflow (id := .simpleVocab) (by decide) h hl hn hw',
    fun h hn => head_overflow (id := .ndArray) (by decide) h hl hn hw',
    fun h hn => head_overflow (id := .ndNorms) (by decide) h hl hn hw', fun h hn => ?_⟩
  unfold WordSize.readQuantizedArray
  rw [bind_apply, ensureChunkType_some (i := .quantizedArray) (by decide) h]
  simp only [ok_bind]
  rw [bind_apply, readU64_some hl]
  simp only [ok_bind]
  have hd : pos + 32 + 8 ≤ d.length := by
    unfold u64At sliceAt at hn
    split at hn
    · assumption
    · cases hn
  have h32 : ∀ k, k + 4 ≤ d.length → ∃ v, u32At d k = some v := by
    intro k hk
    unfold u32At sliceAt
    rw [if_pos hk]
    exact ⟨_, rfl⟩
  obtain ⟨v1, h1⟩ := h32 (pos + 4 + 8) (by omega)
  obtain ⟨v2, h2⟩ := h32 (pos + 4 + 8 + 4) (by omega)
  obtain ⟨v3, h3⟩ := h32 (pos + 4 + 8 + 4 + 4) (by omega)
  obtain ⟨v4, h4⟩ := h32 (pos + 4 + 8 + 4 + 4 + 4) (by omega)
  obtain ⟨v5, h5⟩ := h32 (pos + 4 + 8 + 4 + 4 + 4 + 4) (by omega)
  unfold WordSize.readPq
  simp only [bind_apply]
  rw [readU32_some h1]; simp only [ok_bind]
  rw [readU32_some h2]; simp only [ok_bind]
  rw [readU32_some h3]; simp only [ok_bind]
  rw [readU32_some h4]; simp only [ok_bind]
  rw [readU32_some h5]; simp only [ok_bind]
  rw [readU64_some hn]; simp only [ok_bind]
  rw [WordSize.tryInto_overflow hw']
  rfl

theorem readNorms_fits (w : WordSize) {d : Bytes} {pos : Nat} {r : NdNorms F32 × Nat} (hd : d.length < 2 ^ 32)
    (h : FF.readNorms d pos = .ok r) (x : Err) : w.readNorms d pos ≠ .err x := by
  unfold FF.readNorms at h
  obtain ⟨_, p1, h1, h2⟩ := Rd.bind_ok.mp h
  obtain ⟨_, p2, h3, h4⟩ := Rd.bind_ok.mp h2
  obtain ⟨n, p3, h5, h6⟩ := Rd.bind_ok.mp h4
  obtain ⟨_, p4, h7, h8⟩ := Rd.bind_ok.mp h6
  obtain ⟨_, p5, h9, h10⟩ := Rd.bind_ok.mp h8
  obtain ⟨_, p6, h11, h12⟩ := Rd.bind_ok.mp h10
  obtain ⟨_, p7, h13, h14⟩ := Rd.bind_ok.mp h12
  obtain ⟨_, p8, h15, h16⟩ := Rd.bind_ok.mp h14
  have hn : n < 2 ^ 32 := by
    unfold readF32s at h15
    obtain ⟨_, _, h17, -⟩ := Rd.bind_ok.mp h15
    obtain ⟨-, -, hl⟩ := readExact_ok h17
    by_cases h0 : 4 * n = 0
    · omega
    · have := hl h0; omega
  have hw : n ≤ w.usizeMax := by
    have : 2 ^ 32 - 1 ≤ w.usizeMax := by cases w <;> decide
    omega
  unfold WordSize.readNorms
  simp only [bind_apply, h1, h3, h5, ok_bind]
  rw [show w.tryInto n = pure n from if_pos hw]
  simp only [pure_apply, ok_bind, h7, h9, h11]
  unfold WordSize.allocArray
  rw [Rd.lift_apply]
  have e7 : p7 = p6 := by
    unfold FF.allocArray at h13
    cases hb : decide (([n].filter (· ≠ 0)).prod ≤ FF.isizeMax ∧ 4 * [n].prod ≤ FF.isizeMax) <;> rw [hb] at h13 <;> cases h13
    rfl
  subst e7
  cases decide (([n].filter (· ≠ 0)).prod ≤ w.isizeMax ∧ 4 * [n].prod ≤ w.isizeMax)
  · intro hh; cases hh
  · simp only [assert_true, map_ok, ok_bind, h15]
    intro hh; cases hh

theorem ensureChunkType_pos {d : Bytes} {pos q : Nat} {id : ChunkId} {u : Unit}
    (h : ensureChunkType id d pos = .ok (u, q)) : q = pos + 4 := by
  unfold ensureChunkType readChunkId at h
  obtain ⟨c, p1, h1, h2⟩ := Rd.bind_ok.mp h
  obtain ⟨n, p2, h3, h4⟩ := Rd.bind_ok.mp h1
  obtain ⟨-, e⟩ := readU32_ok h3
  have e1 : p1 = p2 := by
    cases hc : ChunkId.ofCode n <;> rw [hc] at h4 <;> cases h4
    rfl
  have e2 : q = p1 := by
    split at h2
    · cases h2
    · cases h2; rfl
  omega

/-- C94 for whole files below 4 GiB: what a 64-bit machine accepts, a 32-bit machine accepts with the same result, or it panics for
lack of address space or reports an overflow. In particular both never return different embeddings. -/
theorem c94_file {T : Type} [Toml T] (w : WordSize) (d : Bytes) (pos : Nat) (e : Embeddings T VocabWrap StorageWrap F32)
    (hd : d.length < 2 ^ 32) (h : Embeddings.read d pos = .ok e) :
    w.readEmbeddings d pos = .ok e ∨ (w.readEmbeddings d pos : Res (Embeddings T _ _ _)) = .panic ∨
      (w.readEmbeddings d pos : Res (Embeddings T _ _ _)) = .err .overflow := by
  rw [← c94_64] at h
  unfold WordSize.readEmbeddings at h ⊢
  rw [WordSize.readOptMetadata_64, WordSize.readVocabWrap_64, WordSize.readStorageWrap_64, WordSize.readNorms_64] at h
  obtain ⟨⟨m, p1⟩, h1, h⟩ := Res.bind_eq_ok.mp h
  obtain ⟨⟨v, p2⟩, h2, h⟩ := Res.bind_eq_ok.mp h
  obtain ⟨⟨s, p3⟩, h3, h⟩ := Res.bind_eq_ok.mp h
  have hnorms : ∀ n, Embeddings.orNone (FF.readNorms d p3) = .ok n →
      Embeddings.orNone (w.readNorms d p3) = .ok n ∨ Embeddings.orNone (w.readNorms d p3) = .panic := by
    intro n hn
    cases hw : w.readNorms d p3 with
    | ok r => rw [w.readNorms_agrees _ _ _ hw] at hn; exact .inl hn
    | panic => exact .inr rfl
    | err x =>
      refine .inl ?_
      cases h64 : FF.readNorms d p3 with
      | err y => rw [h64] at hn; exact hn
      | panic => rw [h64] at hn; cases hn
      | ok r =>
        exfalso
        exact readNorms_fits w hd h64 x hw
  rcases w.readOptMetadata_keeps _ _ _ hd h1 with k1 | k1 | k1
  · rw [k1]
    simp only [ok_bind]
    rcases w.readVocabWrap_keeps _ _ _ hd h2 with k2 | k2 | k2
    · rw [k2]
      simp only [ok_bind]
      rcases w.readStorageWrap_keeps _ _ _ hd h3 with k3 | k3 | k3
      · rw [k3]
        simp only [ok_bind]
        obtain ⟨n, h4, h5⟩ := Res.bind_eq_ok.mp h
        rcases hnorms n h4 with k4 | k4
        · rw [k4]; exact .inl h5
        · rw [k4]; exact .inr (.inl rfl)
      · rw [k3]; exact .inr (.inl rfl)
      · rw [k3]; exact .inr (.inr rfl)
    · rw [k2]; exact .inr (.inl rfl)
    · rw [k2]; exact .inr (.inr rfl)
  · rw [k1]; exact .inr (.inl rfl)
  · rw [k1]; exact .inr (.inr rfl)

theorem readBucketed_count {I : Type} [BucketIndexer I] {id : ChunkId} {d : Bytes} {pos : Nat} {r : SubwordVocab I × Nat}
    (h : FF.readBucketed id d pos = .ok r) : ∃ n, u64At d (pos + 12) = some n ∧ 4 * n ≤ d.length := by
  unfold FF.readBucketed at h
  obtain ⟨_, p1, h1, h2⟩ := Rd.bind_ok.mp h
  obtain ⟨_, p2, h3, h4⟩ := Rd.bind_ok.mp h2
  obtain ⟨n, p3, h5, h6⟩ := Rd.bind_ok.mp h4
  have e1 := ensureChunkType_pos h1
  obtain ⟨-, e2⟩ := readU64_ok h3
  obtain ⟨e3, -⟩ := readU64_ok h5
  subst e1 e2
  exact ⟨n, e3, WordSize.bucketedRest_long h6⟩

theorem readExplicit_count {d : Bytes} {pos : Nat} {r : ExplicitSubwordVocab × Nat}
    (h : FF.readExplicit d pos = .ok r) : ∃ n, u64At d (pos + 20) = some n ∧ 4 * n ≤ d.length := by
  unfold FF.readExplicit at h
  obtain ⟨_, p1, h1, h2⟩ := Rd.bind_ok.mp h
  obtain ⟨_, p2, h3, h4⟩ := Rd.bind_ok.mp h2
  obtain ⟨n, p3, h5, h6⟩ := Rd.bind_ok.mp h4
  obtain ⟨m, p4, h7, h8⟩ := Rd.bind_ok.mp h6
  have e1 := ensureChunkType_pos h1
  obtain ⟨-, e2⟩ := readU64_ok h3
  obtain ⟨-, e4⟩ := readU64_ok h5
  subst e1 e2 e4
  obtain ⟨e5, -⟩ := readU64_ok h7
  obtain ⟨_, _, -, k1⟩ := Rd.bind_ok.mp h8
  obtain ⟨_, _, -, k2⟩ := Rd.bind_ok.mp k1
  obtain ⟨_, _, -, k3⟩ := Rd.bind_ok.mp k2
  obtain ⟨_, _, k4, -⟩ := Rd.bind_ok.mp k3
  exact ⟨m, e5, readNgrams_long k4⟩

theorem readMetadata_count {T : Type} [Toml T] {d : Bytes} {pos : Nat} {r : Metadata T × Nat}
    (h : FF.readMetadata d pos = .ok r) : ∃ n, u64At d (pos + 4) = some n ∧ (n ≠ 0 → n ≤ d.length) := by
  unfold FF.readMetadata at h
  obtain ⟨_, p1, h1, h2⟩ := Rd.bind_ok.mp h
  obtain ⟨n, p2, h3, h4⟩ := Rd.bind_ok.mp h2
  have e1 := ensureChunkType_pos h1
  subst e1
  obtain ⟨e3, -⟩ := readU64_ok h3
  obtain ⟨_, _, -, k1⟩ := Rd.bind_ok.mp h4
  obtain ⟨_, _, k2, -⟩ := Rd.bind_ok.mp k1
  obtain ⟨-, -, hl⟩ := readExact_ok k2
  exact ⟨n, e3, fun h0 => by have := hl h0; omega⟩

theorem ok_of_map {α β : Type} {x : Res α} {f : α → β} {b : β} (h : x.map f = .ok b) : ∃ a, x = .ok a := by
  cases x with
  | ok a => exact ⟨a, rfl⟩
  | err e => cases h
  | panic => cases h

/-- Chunks that announce 2^32 + 1 words, n-grams or bytes and contain one: a bucketed vocabulary, an explicit vocabulary and
metadata. -/
def exampleTooMany : Bytes × Bytes × Bytes :=
  (leBytes 4 3 ++ leBytes 8 0 ++ leBytes 8 (2 ^ 32 + 1) ++ leBytes 4 1 ++ leBytes 4 2 ++ leBytes 4 3 ++ leBytes 4 1 ++ [97],
   leBytes 4 8 ++ leBytes 8 0 ++ leBytes 8 (2 ^ 32 + 1) ++ leBytes 8 (2 ^ 32 + 1) ++ leBytes 4 1 ++ leBytes 4 2 ++
     leBytes 4 1 ++ [97] ++ leBytes 4 1 ++ [98] ++ leBytes 8 0,
   leBytes 4 5 ++ leBytes 8 (2 ^ 32 + 1) ++ [97])

/-- C94 is false for bucketed and explicit vocabularies and for metadata: a number that does not fit loses its upper bits on
a 32-bit machine, so that a chunk is accepted there that is not what the file says, and that a 64-bit machine refuses. -/
theorem c94_false :
    (∃ d r, (WordSize.readBucketed .w32 .bucketSubwordVocab : Rd BucketSubwordVocab) d 0 = .ok r ∧
      ∀ r', (readChunk : Rd BucketSubwordVocab) d 0 ≠ .ok r') ∧
    (∃ d r, WordSize.readExplicit .w32 d 0 = .ok r ∧ ∀ r', (readChunk : Rd ExplicitSubwordVocab) d 0 ≠ .ok r') ∧
    (∃ d r, @WordSize.readMetadata _ exampleToml .w32 d 0 = .ok r ∧ ∀ r', @FF.readMetadata _ exampleToml d 0 ≠ .ok r') := by
  refine ⟨⟨exampleTooMany.1, ?_⟩, ⟨exampleTooMany.2.1, ?_⟩, ⟨exampleTooMany.2.2, ?_⟩⟩
  · obtain ⟨r, hr⟩ := ok_of_map (show ((WordSize.readBucketed .w32 .bucketSubwordVocab : Rd BucketSubwordVocab)
      exampleTooMany.1 0).map (fun r => r.1.words) = .ok [['a']] by decide +kernel)
    refine ⟨r, hr, fun r' h => ?_⟩
    obtain ⟨n, h1, h2⟩ := readBucketed_count h
    rw [show u64At exampleTooMany.1 (0 + 12) = some (2 ^ 32 + 1) by decide +kernel] at h1
    cases h1
    rw [show exampleTooMany.1.length = 37 by decide +kernel] at h2
    omega
  · obtain ⟨r, hr⟩ := ok_of_map (show (WordSize.readExplicit .w32 exampleTooMany.2.1 0).map
      (fun r => (r.1.words, r.1.indexer.ngrams)) = .ok ([['a']], [['b']]) by decide +kernel)
    refine ⟨r, hr, fun r' h => ?_⟩
    obtain ⟨n, h1, h2⟩ := readExplicit_count h
    rw [show u64At exampleTooMany.2.1 (0 + 20) = some (2 ^ 32 + 1) by decide +kernel] at h1
    cases h1
    rw [show exampleTooMany.2.1.length = 54 by decide +kernel] at h2
    omega
  · refine ⟨(⟨['a']⟩, 13), by decide +kernel, fun r' h => ?_⟩
    obtain ⟨n, h1, h2⟩ := @readMetadata_count _ exampleToml _ _ _ h
    rw [show u64At exampleTooMany.2.2 (0 + 4) = some (2 ^ 32 + 1) by decide +kernel] at h1
    cases h1
    rw [show exampleTooMany.2.2.length = 13 by decide +kernel] at h2
    omega

/-- C94 for bucketed and explicit vocabularies and metadata, if the numbers of words and n-grams and the length of the
metadata are below 2^32. -/
theorem c94_partial {T : Type} [Toml T] {I : Type} [BucketIndexer I] (w : WordSize) (d : Bytes) (pos : Nat) :
    (∀ id r, (∀ n, u64At d (pos + 12) = some n → n < 2 ^ 32) →
      (w.readBucketed id : Rd (SubwordVocab I)) d pos = .ok r → FF.readBucketed id d pos = .ok r) ∧
    (∀ r, (∀ n, u64At d (pos + 12) = some n → n < 2 ^ 32) → (∀ n, u64At d (pos + 20) = some n → n < 2 ^ 32) →
      w.readExplicit d pos = .ok r → FF.readExplicit d pos = .ok r) ∧
    (∀ r, (∀ n, u64At d (pos + 4) = some n → n < 2 ^ 32) →
      (w.readMetadata : Rd (Metadata T)) d pos = .ok r → FF.readMetadata d pos = .ok r) := by
  refine ⟨fun id r hn h => ?_, fun r hn hm h => ?_, fun r hn h => ?_⟩
  · unfold WordSize.readBucketed at h
    obtain ⟨_, p1, h1, h2⟩ := Rd.bind_ok.mp h
    obtain ⟨_, p2, h3, h4⟩ := Rd.bind_ok.mp h2
    obtain ⟨n, p3, h5, h6⟩ := Rd.bind_ok.mp h4
    have e1 := ensureChunkType_pos h1
    obtain ⟨-, e2⟩ := readU64_ok h3
    obtain ⟨e3, -⟩ := readU64_ok h5
    subst e1 e2
    have hlt := hn n e3
    change w.bucketedRest (w.cast n) d p3 = _ at h6
    rw [w.cast_of_lt hlt] at h6
    exact Rd.bind_ok.mpr ⟨_, _, h1, Rd.bind_ok.mpr ⟨_, _, h3, Rd.bind_ok.mpr ⟨_, _, h5, w.bucketedRest_agrees n _ _ _ h6⟩⟩⟩
  · unfold WordSize.readExplicit at h
    obtain ⟨_, p1, h1, h2⟩ := Rd.bind_ok.mp h
    obtain ⟨_, p2, h3, h4⟩ := Rd.bind_ok.mp h2
    obtain ⟨n, p3, h5, h6⟩ := Rd.bind_ok.mp h4
    obtain ⟨m, p4, h7, h8⟩ := Rd.bind_ok.mp h6
    have e1 := ensureChunkType_pos h1
    obtain ⟨-, e2⟩ := readU64_ok h3
    obtain ⟨e3, e4⟩ := readU64_ok h5
    subst e1 e2 e4
    obtain ⟨e5, -⟩ := readU64_ok h7
    have hlt := hn n e3
    have hlt' := hm m e5
    change w.explicitRest (w.cast n) (w.cast m) d p4 = _ at h8
    rw [w.cast_of_lt hlt, w.cast_of_lt hlt'] at h8
    exact Rd.bind_ok.mpr ⟨_, _, h1, Rd.bind_ok.mpr ⟨_, _, h3, Rd.bind_ok.mpr ⟨_, _, h5,
      Rd.bind_ok.mpr ⟨_, _, h7, w.explicitRest_agrees n m _ _ _ h8⟩⟩⟩⟩
  · unfold WordSize.readMetadata at h
    obtain ⟨_, p1, h1, h2⟩ := Rd.bind_ok.mp h
    obtain ⟨n, p2, h3, h4⟩ := Rd.bind_ok.mp h2
    have e1 := ensureChunkType_pos h1
    subst e1
    obtain ⟨e3, -⟩ := readU64_ok h3
    rw [w.cast_of_lt (hn n e3)] at h4
    refine Rd.bind_ok.mpr ⟨_, _, h1, Rd.bind_ok.mpr ⟨_, _, h3, ?_⟩⟩
    revert h4
    exact (Agrees.bind (w.alloc_agrees' _ _) fun _ => .refl _) _ _ _

/-- A simple vocabulary, a matrix and norms for the examples. -/
def exampleChunks : Bytes × Bytes × Bytes :=
  ((SimpleVocab.write ⟨indexMap [['a'], ['語']], [['a'], ['語']]⟩).bytes,
   (writeNdArray ⟨2, [[1, 2], [3, 0x7fc00001]]⟩ 0).bytes, (writeNorms [5, 6] 0).bytes)

example : ∃ v a n, WordSize.readSimple .w32 exampleChunks.1 0 = .ok v ∧
    WordSize.readNdArray .w32 exampleChunks.2.1 0 = .ok a ∧ WordSize.readNorms .w32 exampleChunks.2.2 0 = .ok n ∧
    SimpleVocab.read exampleChunks.1 0 = .ok v ∧ readNdArray exampleChunks.2.1 0 = .ok a ∧
    readNorms exampleChunks.2.2 0 = .ok n := by
  obtain ⟨v, hv⟩ := ok_of_map (show (WordSize.readSimple .w32 exampleChunks.1 0).map (fun r => r.1.words) =
    .ok [['a'], ['語']] by decide +kernel)
  obtain ⟨a, ha⟩ := ok_of_map (show (WordSize.readNdArray .w32 exampleChunks.2.1 0).map (fun r => r.1.inner.cols) =
    .ok 2 by decide +kernel)
  obtain ⟨n, hn⟩ := ok_of_map (show (WordSize.readNorms .w32 exampleChunks.2.2 0).map (fun r => r.1.inner) =
    .ok [5, 6] by decide +kernel)
  exact ⟨v, a, n, hv, ha, hn, (c94_agrees .w32).1 _ _ _ hv, (c94_agrees .w32).2.2.1 _ _ _ ha,
    (c94_agrees .w32).2.2.2.2.1 _ _ _ hn⟩

/-- A simple vocabulary that announces 2^32 + 1 words. -/
example : WordSize.readSimple .w32 (leBytes 4 1 ++ leBytes 8 0 ++ leBytes 8 (2 ^ 32 + 1) ++ leBytes 4 1 ++ [97]) 0 =
    .err .overflow :=
  (c94_overflow .w32 _ 0 0 (2 ^ 32 + 1) (by decide +kernel) (by decide)).1 (by decide +kernel) (by decide +kernel)

attribute [local instance] exampleToml in
example : ∃ e : Embeddings Str VocabWrap StorageWrap F32, Embeddings.read (exampleEmbeddings.write 0).bytes 0 = .ok e ∧
    (exampleEmbeddings.write 0).bytes.length < 2 ^ 32 ∧ WordSize.readEmbeddings .w32 (exampleEmbeddings.write 0).bytes 0 = .ok e := by
  have hlen : (exampleEmbeddings.write 0).bytes.length < 2 ^ 32 := by decide +kernel
  obtain ⟨e, he⟩ := ok_of_map (show (Embeddings.read (exampleEmbeddings.write 0).bytes 0 :
    Res (Embeddings Str VocabWrap StorageWrap F32)).map (fun e => e.norms) = .ok (some ⟨[5, 6]⟩) by decide +kernel)
  refine ⟨e, he, hlen, ?_⟩
  have hn : (WordSize.readEmbeddings .w32 (exampleEmbeddings.write 0).bytes 0 :
    Res (Embeddings Str VocabWrap StorageWrap F32)).map (fun e => e.norms) = .ok (some ⟨[5, 6]⟩) := by decide +kernel
  rcases c94_file .w32 _ 0 e hlen he with h | h | h
  · exact h
  · rw [h] at hn; cases hn
  · rw [h] at hn; cases hn

example : ∃ r, (WordSize.readBucketed .w32 .bucketSubwordVocab : Rd BucketSubwordVocab)
      (leBytes 4 3 ++ leBytes 8 0 ++ leBytes 8 1 ++ leBytes 4 1 ++ leBytes 4 2 ++ leBytes 4 3 ++ leBytes 4 1 ++ [97]) 0 =
        .ok r ∧
    (∀ n, u64At (leBytes 4 3 ++ leBytes 8 0 ++ leBytes 8 1 ++ leBytes 4 1 ++ leBytes 4 2 ++ leBytes 4 3 ++ leBytes 4 1 ++ [97])
      (0 + 12) = some n → n < 2 ^ 32) := by
  obtain ⟨r, hr⟩ := ok_of_map (show ((WordSize.readBucketed .w32 .bucketSubwordVocab : Rd BucketSubwordVocab)
      (leBytes 4 3 ++ leBytes 8 0 ++ leBytes 8 1 ++ leBytes 4 1 ++ leBytes 4 2 ++ leBytes 4 3 ++ leBytes 4 1 ++ [97]) 0).map
        (fun r => r.1.words) = .ok [['a']] by decide +kernel)
  refine ⟨r, hr, fun n h => ?_⟩
  rw [show u64At (leBytes 4 3 ++ leBytes 8 0 ++ leBytes 8 1 ++ leBytes 4 1 ++ leBytes 4 2 ++ leBytes 4 3 ++ leBytes 4 1 ++ [97])
    (0 + 12) = some 1 by decide +kernel] at h
  cases h
  decide

end FF
