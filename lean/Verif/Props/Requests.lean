import Verif.Model.Requests
import Verif.Lemmas.ReadAt
import Verif.Lemmas.Vocab
import Verif.Lemmas.Text
import Verif.Props.Overflow
import Verif.Props.Accepted

/-!
# C102: memory requested while reading

The readers request memory for numbers of elements that they find in the data, before they read the elements. If the
data is accepted, the requests are proportional to the data.
-/

namespace FF

namespace MRd
variable {α β γ : Type}

/-! ## The readers with requests are the readers -/

/-- Leaving the requests out of `m` gives `m'`. -/
def Erases (m : MRd α) (m' : Rd α) : Prop := ∀ d p, (m d p).2 = m' d p

theorem andThen_snd (x : List Nat × Res α) (f : α → List Nat × Res β) :
    (andThen x f).2 = x.2 >>= fun a => (f a).2 := by
  unfold andThen
  rcases x with ⟨r, x⟩
  cases x <;> rfl

namespace Erases

theorem of (m : Rd α) : Erases (of m) m := fun _ _ => rfl
theorem lifted (m : Rd α) : Erases (monadLift m : MRd α) m := fun _ _ => rfl
theorem lift' (m : Rd α) : Erases (liftM m : MRd α) m := fun _ _ => rfl
theorem pure (a : α) : Erases (pure a) (pure a) := fun _ _ => rfl

theorem bind {m : MRd α} {m' : Rd α} {f : α → MRd β} {f' : α → Rd β} (h : Erases m m')
    (hf : ∀ a, Erases (f a) (f' a)) : Erases (m >>= f) (m' >>= f') := by
  intro d p
  show (andThen (m d p) fun r => f r.1 d r.2).2 = _
  rw [andThen_snd, h d p]
  show (m' d p >>= fun r => (f r.1 d r.2).2) = (m' d p >>= fun r => f' r.1 d r.2)
  congr 1
  funext r
  exact hf r.1 d r.2

theorem request (m : Rd Unit) (n : Nat) : Erases (request m n) m := by
  intro d p
  unfold MRd.request
  cases m d p <;> rfl

theorem alloc (size n : Nat) : Erases (alloc size n) (Rd.alloc size n) := request _ _
theorem allocArray (size : Nat) (dims : List Nat) : Erases (allocArray size dims) (FF.allocArray size dims) := request _ _

theorem replicateM {m : MRd α} {m' : Rd α} (h : Erases m m') (n : Nat) :
    Erases (replicateM n m) (Rd.replicateM n m') := by
  induction n with
  | zero => exact pure _
  | succ n ih => exact h.bind fun _ => ih.bind fun _ => pure _

theorem ite {c : Prop} [Decidable c] {m n : MRd α} {m' n' : Rd α} (h1 : Erases m m') (h2 : Erases n n') :
    Erases (if c then m else n) (if c then m' else n') := by
  by_cases h : c
  · rwa [if_pos h, if_pos h]
  · rwa [if_neg h, if_neg h]

end Erases

/-- Decomposes a goal `Erases` along the structure of a reader. -/
macro "erases_tac" : tactic => `(tactic|
  repeat' (first
    | with_reducible exact Erases.of _ | with_reducible exact Erases.lifted _ | with_reducible exact Erases.lift' _
    | with_reducible exact Erases.pure _ | with_reducible exact Erases.alloc _ _
    | with_reducible exact Erases.allocArray _ _ | with_reducible apply Erases.replicateM | assumption
    | with_reducible refine Erases.bind ?_ (fun _ => ?_) | with_reducible refine Erases.ite ?_ ?_ | split))

theorem erases_header : Erases readHeader Header.read := by
  unfold readHeader Header.read; erases_tac
theorem erases_string : Erases readString FF.readString := by
  unfold readString FF.readString; erases_tac
theorem erases_items (n : Nat) : Erases (readVocabItems n) (FF.readVocabItems n) := by
  have := erases_string
  unfold readVocabItems FF.readVocabItems; erases_tac
theorem erases_simple : Erases readSimple SimpleVocab.read := by
  unfold readSimple SimpleVocab.read
  repeat' (first | with_reducible apply erases_items | erases_tac)
theorem erases_bucketed {I : Type} [BucketIndexer I] (id : ChunkId) :
    Erases (readBucketed id : MRd (SubwordVocab I)) (FF.readBucketed id) := by
  unfold readBucketed FF.readBucketed
  repeat' (first | with_reducible apply erases_items | erases_tac)
theorem erases_ngrams (n : Nat) : Erases (readNgrams n) (FF.readNgrams n) := by
  have : Erases readNgram FF.readNgram := by unfold readNgram FF.readNgram; erases_tac
  unfold readNgrams FF.readNgrams; erases_tac
theorem erases_explicit : Erases readExplicit FF.readExplicit := by
  unfold readExplicit FF.readExplicit
  repeat' (first | with_reducible apply erases_items | with_reducible apply erases_ngrams | erases_tac)
theorem erases_floret : Erases readFloret FF.readFloret := by
  unfold readFloret FF.readFloret
  repeat' (first | with_reducible apply erases_string | erases_tac)
theorem erases_vocabWrap : Erases readVocabWrap FF.readVocabWrap := by
  unfold readVocabWrap FF.readVocabWrap
  refine Erases.bind (Erases.lifted _) fun id => ?_
  cases id
  case simpleVocab => exact erases_simple.bind fun _ => Erases.pure _
  case fastTextSubwordVocab => exact (erases_bucketed _).bind fun _ => Erases.pure _
  case bucketSubwordVocab => exact (erases_bucketed _).bind fun _ => Erases.pure _
  case explicitSubwordVocab => exact erases_explicit.bind fun _ => Erases.pure _
  case floretSubwordVocab => exact erases_floret.bind fun _ => Erases.pure _
  all_goals exact Erases.lifted _
theorem erases_ndArray : Erases readNdArray FF.readNdArray := by
  unfold readNdArray FF.readNdArray; erases_tac
theorem erases_projection (a b : Nat) : Erases (readProjection a b) (FF.readProjection a b) := by
  unfold readProjection FF.readProjection; erases_tac
theorem erases_quantizers (a b c : Nat) : Erases (readQuantizers a b c) (FF.readQuantizers a b c) := by
  unfold readQuantizers FF.readQuantizers; erases_tac
theorem erases_pq : Erases readPq FF.readPq := by
  unfold readPq FF.readPq
  repeat' (first | with_reducible apply erases_projection | with_reducible apply erases_quantizers | erases_tac)
theorem erases_quantizedNorms (b : Bool) (n : Nat) : Erases (readQuantizedNorms b n) (FF.readQuantizedNorms b n) := by
  unfold readQuantizedNorms FF.readQuantizedNorms; erases_tac
theorem erases_quantizedHead : Erases readQuantizedHead FF.readQuantizedHead := by
  unfold readQuantizedHead FF.readQuantizedHead
  repeat' (first | with_reducible apply erases_pq | with_reducible apply erases_quantizedNorms | erases_tac)
theorem erases_quantizedArray : Erases readQuantizedArray FF.readQuantizedArray := by
  unfold readQuantizedArray FF.readQuantizedArray
  repeat' (first | with_reducible apply erases_quantizedHead | erases_tac)
theorem erases_mmapQuantizedArray : Erases mmapQuantizedArray FF.mmapQuantizedArray := by
  unfold mmapQuantizedArray FF.mmapQuantizedArray
  repeat' (first | with_reducible apply erases_quantizedHead | erases_tac)
theorem erases_storageWrap : Erases readStorageWrap FF.readStorageWrap := by
  unfold readStorageWrap FF.readStorageWrap
  refine Erases.bind (Erases.lifted _) fun id => ?_
  cases id
  case ndArray => exact erases_ndArray.bind fun _ => Erases.pure _
  case quantizedArray => exact erases_quantizedArray.bind fun _ => Erases.pure _
  all_goals exact Erases.lifted _
theorem erases_mmapStorageWrap : Erases mmapStorageWrap FF.mmapStorageWrap := by
  unfold mmapStorageWrap FF.mmapStorageWrap
  refine Erases.bind (Erases.lifted _) fun id => ?_
  cases id
  case ndArray => exact (Erases.of _).bind fun _ => Erases.pure _
  case quantizedArray => exact erases_mmapQuantizedArray.bind fun _ => Erases.pure _
  all_goals exact Erases.lifted _
theorem erases_norms : Erases readNorms FF.readNorms := by
  unfold readNorms FF.readNorms; erases_tac
theorem erases_metadata {T : Type} [Toml T] : Erases (readMetadata : MRd (Metadata T)) FF.readMetadata := by
  unfold readMetadata FF.readMetadata; erases_tac
theorem erases_optMetadata {T : Type} [Toml T] : Erases (readOptMetadata : MRd (Option (Metadata T))) FF.readOptMetadata := by
  unfold readOptMetadata FF.readOptMetadata
  refine erases_header.bind fun h => ?_
  rcases h.ids with _ | ⟨i, _⟩
  · exact Erases.lifted _
  · repeat' (first | with_reducible apply erases_metadata | erases_tac)

theorem erases_word2vec {T F : Type} [Scalar F] [FloatBits F] (lossy : Bool) :
    Erases (readWord2vecRaw lossy : MRd (Embeddings T SimpleVocab (NdArray F) F)) (Embeddings.readWord2vecRaw lossy) := by
  unfold readWord2vecRaw Embeddings.readWord2vecRaw; erases_tac
theorem erases_fastText {T F : Type} [Scalar F] [ScalarNat F] [FloatBits F] [ConfigToml T] (lossy : Bool) :
    Erases (readFastText lossy : MRd (Embeddings T FastTextSubwordVocab (NdArray F) F)) (Embeddings.readFastText lossy) := by
  have h1 : ∀ c l, Erases (readFtVocab c l) (FF.readFtVocab c l) := by
    intro c l
    unfold readFtVocab FF.readFtVocab; erases_tac
  have h2 : Erases (readFtMatrix (F := F)) FF.readFtMatrix := by
    unfold readFtMatrix FF.readFtMatrix; erases_tac
  unfold readFastText Embeddings.readFastText
  repeat' (first | with_reducible apply h1 | with_reducible apply h2 | erases_tac)

/-- A complete file: the result is that of the reader without requests. -/
theorem erases_embeddings {T V S : Type} [Toml T] [ReadChunk V] {readVocab : MRd V} {readStorage : MRd S} {readStorage' : Rd S}
    (hv : Erases readVocab readChunk) (hs : Erases readStorage readStorage') (d : Bytes) (pos : Nat) :
    (readEmbeddings (T := T) readVocab readStorage d pos).2 = Embeddings.readWith readStorage' d pos := by
  have h1 : Erases (readHead (T := T) readVocab) Embeddings.readHead := by
    unfold readHead Embeddings.readHead
    exact erases_optMetadata.bind fun _ => hv.bind fun _ => Erases.pure _
  unfold readEmbeddings Embeddings.readWith
  rw [andThen_snd, h1 d pos]
  congr 1
  funext r
  rw [andThen_snd, hs d r.2]
  congr 1
  funext s
  dsimp only
  rw [andThen_snd]
  show (Embeddings.orNone (readNorms d s.2).2 >>= _) = _
  rw [erases_norms d s.2]
  rfl

/-! ## Requests paid for with data -/

/-- After success, the requests and `c` together are at most `k` times the number of bytes of the data that were passed. -/
def Pays (k c : Nat) (m : MRd α) : Prop :=
  ∀ d p a q, (m d p).2 = .ok (a, q) → (m d p).1.sum + c + k * min p d.length ≤ k * min q d.length

/-- Whatever the outcome, all requests but `j` together are at most `k` times the number of bytes that were left. -/
def AllBut (k j : Nat) (m : MRd α) : Prop :=
  ∀ d p, ∃ big rest, big.length ≤ j ∧ (m d p).1.Perm (big ++ rest) ∧ rest.sum + k * min p d.length ≤ k * d.length

theorem mul_min_le (k p l : Nat) : k * min p l ≤ k * l := Nat.mul_le_mul_left k (Nat.min_le_right p l)

theorem andThen_ok {x : List Nat × Res α} {f : α → List Nat × Res β} {a : α} (h : x.2 = .ok a) :
    andThen x f = (x.1 ++ (f a).1, (f a).2) := by
  unfold andThen
  rw [h]

theorem bind_assoc' (m : MRd α) (f : α → MRd β) (g : β → MRd γ) : (m >>= f) >>= g = m >>= fun a => f a >>= g := by
  funext d p
  show andThen (andThen (m d p) _) _ = andThen (m d p) _
  rcases m d p with ⟨rs, r⟩
  cases r with
  | ok r =>
    show andThen (rs ++ (f r.1 d r.2).1, (f r.1 d r.2).2) _ = (rs ++ (andThen (f r.1 d r.2) _).1, (andThen (f r.1 d r.2) _).2)
    rcases f r.1 d r.2 with ⟨rs', r'⟩
    cases r' with
    | ok r' => simp only [andThen, List.append_assoc]
    | err e => rfl
    | panic => rfl
  | err e => rfl
  | panic => rfl

theorem of_bind (m : Rd α) (f : α → Rd β) : of (m >>= f) = of m >>= fun a => of (f a) := by
  funext d p
  show ([], m d p >>= _) = andThen ([], m d p) _
  cases m d p <;> rfl

theorem liftM_eq (m : Rd α) : (liftM m : MRd α) = of m := rfl

theorem of_pure (a : α) : of (pure a) = pure a := rfl

theorem bind_apply (m : MRd α) (f : α → MRd β) (d : Bytes) (p : Nat) :
    (m >>= f) d p = andThen (m d p) fun r => f r.1 d r.2 := rfl

namespace Pays
variable {k c c' : Nat}

theorem weaken {m : MRd α} (h : Pays k c m) (hc : c' ≤ c) : Pays k c' m := by
  intro d p a q hq
  have := h d p a q hq
  omega

theorem bind {m : MRd α} {f : α → MRd β} (h : Pays k c m) (hf : ∀ a, Pays k c' (f a)) : Pays k (c + c') (m >>= f) := by
  intro d p b q hq
  rw [bind_apply] at hq ⊢
  have h2 := hq
  rw [andThen_snd] at h2
  obtain ⟨⟨a, r⟩, h1, h2⟩ := Res.bind_eq_ok.mp h2
  rw [andThen_ok h1, List.sum_append]
  have := h d p a r h1
  have := hf a d r b q h2
  dsimp only
  omega

/-- A reader without requests that goes forward. -/
theorem of {m : Rd α} (h : ∀ d p a q, m d p = .ok (a, q) → p ≤ q) : Pays k 0 (of m) := by
  intro d p a q hq
  have h1 := h d p a q hq
  show 0 + 0 + k * min p d.length ≤ _
  have : k * min p d.length ≤ k * min q d.length := Nat.mul_le_mul_left k (by omega)
  omega

theorem readExact (n : Nat) : Pays k (k * n) (MRd.of (Rd.readExact n)) := by
  intro d p a q hq
  obtain ⟨rfl, _, h⟩ := readExact_ok hq
  show 0 + k * n + k * min p d.length ≤ _
  by_cases h0 : n = 0
  · subst h0; simp
  · have := h h0
    rw [Nat.min_eq_left (by omega), Nat.min_eq_left this, Nat.mul_add]
    omega

theorem pure (a : α) : Pays k 0 (pure a : MRd α) := by
  intro d p b q hq
  cases hq
  show 0 + 0 + _ ≤ _
  omega

theorem replicateM {m : MRd α} (h : Pays k c m) (n : Nat) : Pays k (n * c) (replicateM n m) := by
  induction n with
  | zero => exact (pure _).weaken (by omega)
  | succ n ih => exact (h.bind fun _ => ih.bind fun _ => pure _).weaken (by rw [Nat.succ_mul]; omega)

/-- A request that is paid for by what follows. -/
theorem request {m : Rd Unit} (hm : ∀ d p u q, m d p = .ok (u, q) → q = p) {n : Nat} {f : Unit → MRd α}
    (hf : Pays k n (f ())) : Pays k 0 (request m n >>= f) := by
  intro d p a q hq
  rw [bind_apply] at hq ⊢
  have h2 := hq
  rw [andThen_snd] at h2
  obtain ⟨⟨u, r⟩, h1, h2'⟩ := Res.bind_eq_ok.mp h2
  rw [andThen_ok h1, List.sum_append]
  have h3 : m d p = .ok (u, r) := by
    have := Erases.request m n d p
    rw [this] at h1
    exact h1
  have hr := hm _ _ _ _ h3
  subst hr
  have h4 : (MRd.request m n d r).1 = [n] := by
    unfold MRd.request
    rw [h3]
  have : (f u d r).1.sum + n + k * min r d.length ≤ k * min q d.length := hf d r a q h2'
  rw [h4]
  simp only [List.sum_cons, List.sum_nil]
  omega

end Pays

namespace AllBut
variable {k j j' : Nat}

theorem weaken {m : MRd α} (h : AllBut k j m) (hj : j ≤ j') : AllBut k j' m := by
  intro d p
  obtain ⟨big, rest, h1, h2⟩ := h d p
  exact ⟨big, rest, Nat.le_trans h1 hj, h2⟩

theorem of {m : Rd α} : AllBut k j (of m) := fun d p =>
  ⟨[], [], Nat.zero_le _, List.Perm.refl _, by have := mul_min_le k p d.length; simpa using this⟩

theorem pure (a : α) : AllBut k j (pure a : MRd α) := of (m := Pure.pure a)

theorem bind {m : MRd α} {f : α → MRd β} (hp : Pays k 0 m) (h : AllBut k j m) (hf : ∀ a, AllBut k j (f a)) :
    AllBut k j (m >>= f) := by
  intro d p
  rw [bind_apply]
  cases hm : (m d p).2 with
  | ok r =>
    rw [andThen_ok hm]
    obtain ⟨big, rest, h1, h2, h3⟩ := hf r.1 d r.2
    refine ⟨big, (m d p).1 ++ rest, h1, ?_, ?_⟩
    · refine (h2.append_left (m d p).1).trans ?_
      rw [← List.append_assoc, ← List.append_assoc]
      exact List.perm_append_comm.append_right rest
    · have := hp d p r.1 r.2 hm
      rw [List.sum_append]
      omega
  | err e =>
    unfold andThen
    rw [hm]
    exact h d p
  | panic =>
    unfold andThen
    rw [hm]
    exact h d p

theorem replicateM {m : MRd α} (hp : Pays k 0 m) (h : AllBut k j m) (n : Nat) : AllBut k j (replicateM n m) := by
  induction n with
  | zero => exact pure _
  | succ n ih =>
    refine bind hp h fun _ => bind ?_ ih fun _ => pure _
    exact (hp.replicateM n).weaken (by omega)

/-- One more request. -/
theorem request {m : Rd Unit} (hm : ∀ d p u q, m d p = .ok (u, q) → q = p) {n : Nat} {f : Unit → MRd α}
    (hf : AllBut k j (f ())) : AllBut k (j + 1) (request m n >>= f) := by
  intro d p
  rw [bind_apply]
  unfold MRd.request
  cases h : m d p with
  | ok r =>
    obtain ⟨u, q⟩ := r
    have hq := hm _ _ _ _ h
    subst hq
    obtain ⟨big, rest, h1, h2, h3⟩ := hf d q
    exact ⟨n :: big, rest, by simpa using h1, (h2.cons n), h3⟩
  | err e => exact ⟨[], [], Nat.zero_le _, List.Perm.refl _, by have := mul_min_le k p d.length; simpa using this⟩
  | panic => exact ⟨[], [], Nat.zero_le _, List.Perm.refl _, by have := mul_min_le k p d.length; simpa using this⟩

end AllBut

/-- Both: after success all requests are paid for, otherwise all but `j`. -/
structure Frugal (k j : Nat) (m : MRd α) : Prop where
  pays : Pays k 0 m
  allBut : AllBut k j m

namespace Frugal
variable {k j : Nat}

theorem weaken {m : MRd α} {j' : Nat} (h : Frugal k j m) (hj : j ≤ j') : Frugal k j' m := ⟨h.1, h.2.weaken hj⟩
theorem of {m : Rd α} (h : ∀ d p a q, m d p = .ok (a, q) → p ≤ q) : Frugal k j (of m) := ⟨Pays.of h, AllBut.of⟩
theorem pure (a : α) : Frugal k j (pure a : MRd α) := ⟨Pays.pure a, AllBut.pure a⟩
theorem bind {m : MRd α} {f : α → MRd β} (h : Frugal k j m) (hf : ∀ a, Frugal k j (f a)) : Frugal k j (m >>= f) :=
  ⟨h.1.bind fun a => (hf a).1, AllBut.bind h.1 h.2 fun a => (hf a).2⟩
theorem ite {c : Prop} [Decidable c] {m n : MRd α} (h1 : Frugal k j m) (h2 : Frugal k j n) :
    Frugal k j (if c then m else n) := by
  by_cases h : c
  · rwa [if_pos h]
  · rwa [if_neg h]

/-- A request, and then something that pays for it. -/
theorem block {m : Rd Unit} (hm : ∀ d p u q, m d p = .ok (u, q) → q = p) {n : Nat} {g : MRd α} (hp : Pays k n g)
    (hg : AllBut k j g) {f : α → MRd β} (hf : ∀ a, Frugal k (j + 1) (f a)) :
    Frugal k (j + 1) (request m n >>= fun _ => g >>= f) := by
  rw [← bind_assoc' (request m n) (fun _ => g) f]
  exact bind ⟨Pays.request hm hp, AllBut.request hm hg⟩ hf

/-- A table for `n` elements, each read with something that pays for its place. -/
theorem table {size c : Nat} {m : MRd α} (hp : Pays k c m) (hc : size ≤ c) (h : AllBut k j m) (n : Nat) :
    Frugal k (j + 1) (alloc size n >>= fun _ => replicateM n m) := by
  have hm : ∀ d p u q, Rd.alloc size n d p = .ok (u, q) → q = p := fun _ _ _ _ h => (Rd.lift_ok.mp h).2
  refine ⟨Pays.request hm ((hp.replicateM n).weaken ?_), AllBut.request hm (AllBut.replicateM (hp.weaken (Nat.zero_le _)) h n)⟩
  rw [Nat.mul_comm]
  exact Nat.mul_le_mul_left n hc

/-- Room for `n` bytes, and these bytes. -/
theorem bytes (hk : 1 ≤ k) {f : Bytes → MRd α} (n : Nat) (hf : ∀ a, Frugal k (j + 1) (f a)) :
    Frugal k (j + 1) (alloc 1 n >>= fun _ => MRd.of (Rd.readExact n) >>= f) :=
  block (fun _ _ _ _ h => (Rd.lift_ok.mp h).2)
    ((Pays.readExact n).weaken (Nat.mul_le_mul_right n hk)) AllBut.of hf

/-- An array of bytes. -/
theorem byteArray (hk : 1 ≤ k) {f : Bytes → MRd α} {dims : List Nat} {n : Nat} (hn : dims.prod = n)
    (hf : ∀ a, Frugal k (j + 1) (f a)) :
    Frugal k (j + 1) (allocArray 1 dims >>= fun _ => MRd.of (Rd.readExact n) >>= f) :=
  block (fun _ _ _ _ h => (Rd.lift_ok.mp h).2)
    ((Pays.readExact n).weaken (hn ▸ Nat.mul_le_mul_right _ hk)) AllBut.of hf

/-- An array of floats. -/
theorem floatArray (hk : 1 ≤ k) {f : List F32 → MRd α} {dims : List Nat} {n : Nat} (hn : dims.prod = n)
    (hf : ∀ a, Frugal k (j + 1) (f a)) :
    Frugal k (j + 1) (allocArray 4 dims >>= fun _ => MRd.of (Rd.readF32s n) >>= f) := by
  refine block (fun _ _ _ _ h => (Rd.lift_ok.mp h).2) ?_ AllBut.of hf
  unfold Rd.readF32s
  rw [of_bind]
  refine ((Pays.readExact (4 * n)).bind fun _ => Pays.pure _).weaken ?_
  subst hn
  have := Nat.mul_le_mul_right (4 * dims.prod) hk
  omega

theorem readU32 : Frugal k j (MRd.of Rd.readU32) := of fun _ _ _ _ h => by
  obtain ⟨_, _, h1, h2⟩ := Rd.bind_ok.mp h
  have := (readExact_ok h1).1
  cases h2
  omega
theorem readU64 : Frugal k j (MRd.of Rd.readU64) := of fun _ _ _ _ h => by
  obtain ⟨_, _, h1, h2⟩ := Rd.bind_ok.mp h
  have := (readExact_ok h1).1
  cases h2
  omega
theorem readExact (n : Nat) : Frugal k j (MRd.of (Rd.readExact n)) := of fun _ _ _ _ h => by
  have := (readExact_ok h).1
  omega
theorem lift (r : Res α) : Frugal k j (MRd.of (Rd.lift r)) := of fun _ _ _ _ h => by
  have := (Rd.lift_ok.mp h).2
  omega
theorem fail (e : Err) : Frugal k j (MRd.of (Rd.fail e : Rd α)) := of fun _ _ _ _ h => by cases h
theorem position : Frugal k j (MRd.of Rd.position) := of fun _ _ _ _ h => by cases h; omega
theorem skip (n : Nat) : Frugal k j (MRd.of (Rd.skip n)) := of fun _ _ _ _ h => by cases h; omega
theorem readChunkId : Frugal k j (MRd.of readChunkId) := by
  unfold FF.readChunkId
  rw [of_bind]
  exact readU32.bind fun _ => lift _
theorem peekChunkId : Frugal k j (MRd.of peekChunkId) := of fun d p a q h => by
  unfold FF.peekChunkId at h
  cases h1 : FF.readChunkId d p <;> rw [h1] at h <;> cases h
  omega
theorem of_ite {c : Prop} [Decidable c] {m n : Rd α} (h1 : Frugal k j (MRd.of m)) (h2 : Frugal k j (MRd.of n)) :
    Frugal k j (MRd.of (if c then m else n)) := by
  by_cases h : c
  · rwa [if_pos h]
  · rwa [if_neg h]
theorem ensureChunkType (i : ChunkId) : Frugal k j (MRd.of (ensureChunkType i)) := by
  unfold FF.ensureChunkType
  rw [of_bind]
  exact readChunkId.bind fun _ => of_ite (fail _) (pure _)
theorem ensureDataType (i : Nat) : Frugal k j (MRd.of (ensureDataType i)) := by
  unfold FF.ensureDataType
  rw [of_bind]
  exact readU32.bind fun _ => of_ite (fail _) (pure _)
theorem mapRegion (n : Nat) : Frugal k j (MRd.of (mapRegion n)) := of fun d p a q h => by
  unfold FF.mapRegion at h
  split at h <;> cases h
  omega

end Frugal

/-- Decomposes a goal `Frugal` along the structure of a reader. -/
macro "frugal_tac" : tactic => `(tactic|
  repeat' (first
    | with_reducible exact Frugal.readU32 | with_reducible exact Frugal.readU64 | with_reducible exact Frugal.readExact _
    | with_reducible exact Frugal.lift _ | with_reducible exact Frugal.fail _ | with_reducible exact Frugal.pure _
    | with_reducible exact Frugal.position | with_reducible exact Frugal.skip _ | with_reducible exact Frugal.readChunkId
    | with_reducible exact Frugal.peekChunkId | with_reducible exact Frugal.ensureChunkType _
    | with_reducible exact Frugal.ensureDataType _ | with_reducible exact Frugal.mapRegion _
    | with_reducible refine Frugal.bytes (by decide) _ (fun _ => ?_)
    | with_reducible refine Frugal.byteArray (by decide) (by simp) (fun _ => ?_)
    | with_reducible refine Frugal.floatArray (by decide) (by simp [Nat.mul_assoc]) (fun _ => ?_)
    | with_reducible refine Frugal.ite ?_ ?_
    | with_reducible refine Frugal.bind ?_ (fun _ => ?_)
    | split))

theorem frugal_header : Frugal 6 1 readHeader := by
  unfold readHeader
  simp only [liftM_eq]
  refine Frugal.bind (Frugal.readExact _) fun _ => Frugal.ite (Frugal.fail _) ?_
  refine Frugal.bind Frugal.readU32 fun _ => Frugal.ite (Frugal.fail _) ?_
  refine Frugal.bind Frugal.readU32 fun n => ?_
  rw [← bind_assoc' (alloc 4 n)]
  refine Frugal.bind (Frugal.table (c := 24) ?_ (by decide) AllBut.of n) fun _ => Frugal.pure _
  unfold readChunkId Rd.readU32
  simp only [of_bind]
  exact ((Pays.readExact 4).bind fun _ => Pays.pure _).bind fun _ => (Frugal.lift (j := 0) _).pays

theorem pays_u32 : Pays 6 24 (of Rd.readU32) := by
  unfold Rd.readU32
  rw [of_bind]
  exact (Pays.readExact 4).bind fun _ => Pays.pure _

theorem pays_u64 : Pays 6 48 (of Rd.readU64) := by
  unfold Rd.readU64
  rw [of_bind]
  exact (Pays.readExact 8).bind fun _ => Pays.pure _

/-- A string takes four bytes besides its text, which pay for 24 bytes. -/
theorem pays_string : Pays 6 24 readString := by
  unfold readString
  simp only [liftM_eq]
  exact pays_u32.bind (c' := 0) fun n => (show Frugal 6 1 _ by frugal_tac).pays

theorem frugal_string : Frugal 6 1 readString := by
  unfold readString
  simp only [liftM_eq]
  frugal_tac

/-- An n-gram takes twelve bytes besides its text, which pay for more than 32 bytes. -/
theorem pays_ngram : Pays 6 32 readNgram := by
  unfold readNgram
  simp only [liftM_eq]
  refine Pays.weaken (c := 24 + (0 + (0 + (48 + 0)))) ?_ (by decide)
  refine pays_u32.bind fun n => ?_
  rw [← bind_assoc' (alloc 1 n)]
  refine Pays.bind ?_ fun _ => (Frugal.lift (j := 0) _).pays.bind fun _ => pays_u64.bind fun _ => Pays.pure _
  exact Pays.request (fun _ _ _ _ h => (Rd.lift_ok.mp h).2) ((Pays.readExact n).weaken (by omega))

theorem frugal_ngram : Frugal 6 1 readNgram := by
  unfold readNgram
  simp only [liftM_eq]
  frugal_tac

theorem frugal_items (n : Nat) : Frugal 6 2 (readVocabItems n) :=
  Frugal.table pays_string (Nat.le_refl _) frugal_string.allBut n

theorem frugal_ngrams (n : Nat) : Frugal 6 2 (readNgrams n) :=
  Frugal.table pays_ngram (Nat.le_refl _) frugal_ngram.allBut n

theorem frugal_simple : Frugal 6 2 readSimple := by
  unfold readSimple
  simp only [liftM_eq]
  repeat' (first | with_reducible exact frugal_items _ | frugal_tac)
theorem frugal_bucketed {I : Type} [BucketIndexer I] (id : ChunkId) : Frugal 6 2 (readBucketed id : MRd (SubwordVocab I)) := by
  unfold readBucketed
  simp only [liftM_eq]
  repeat' (first | with_reducible exact frugal_items _ | frugal_tac)
theorem frugal_explicit : Frugal 6 2 readExplicit := by
  unfold readExplicit
  simp only [liftM_eq]
  repeat' (first | with_reducible exact frugal_items _ | with_reducible exact frugal_ngrams _ | frugal_tac)
theorem frugal_floret : Frugal 6 1 readFloret := by
  unfold readFloret
  simp only [liftM_eq]
  repeat' (first | with_reducible exact frugal_string | frugal_tac)
theorem frugal_vocabWrap : Frugal 6 2 readVocabWrap := by
  unfold readVocabWrap
  refine Frugal.bind Frugal.peekChunkId fun id => ?_
  cases id
  case simpleVocab => exact frugal_simple.bind fun _ => Frugal.pure _
  case fastTextSubwordVocab => exact (frugal_bucketed _).bind fun _ => Frugal.pure _
  case bucketSubwordVocab => exact (frugal_bucketed _).bind fun _ => Frugal.pure _
  case explicitSubwordVocab => exact frugal_explicit.bind fun _ => Frugal.pure _
  case floretSubwordVocab => exact (frugal_floret.weaken (by decide)).bind fun _ => Frugal.pure _
  all_goals exact Frugal.fail _
theorem frugal_ndArray : Frugal 6 1 readNdArray := by
  unfold readNdArray readNdArrayHead
  simp only [liftM_eq, of_bind, of_pure]
  frugal_tac
theorem frugal_projection (a b : Nat) : Frugal 6 1 (readProjection a b) := by
  unfold readProjection
  simp only [liftM_eq]
  frugal_tac
theorem frugal_quantizers (a b c : Nat) : Frugal 6 1 (readQuantizers a b c) := by
  unfold readQuantizers
  simp only [liftM_eq]
  frugal_tac
theorem frugal_pq : Frugal 6 1 readPq := by
  unfold readPq
  simp only [liftM_eq]
  repeat' (first | with_reducible exact frugal_projection _ _ | with_reducible exact frugal_quantizers _ _ _ | frugal_tac)
theorem frugal_quantizedNorms (b : Bool) (n : Nat) : Frugal 6 1 (readQuantizedNorms b n) := by
  unfold readQuantizedNorms
  simp only [liftM_eq]
  frugal_tac
theorem frugal_quantizedHead : Frugal 6 1 readQuantizedHead := by
  unfold readQuantizedHead
  simp only [liftM_eq]
  repeat' (first | with_reducible exact frugal_pq | with_reducible exact frugal_quantizedNorms _ _ | frugal_tac)
theorem frugal_quantizedArray : Frugal 6 1 readQuantizedArray := by
  unfold readQuantizedArray
  simp only [liftM_eq]
  repeat' (first | with_reducible exact frugal_quantizedHead | frugal_tac)
theorem frugal_mmapQuantizedArray : Frugal 6 1 mmapQuantizedArray := by
  unfold mmapQuantizedArray
  simp only [liftM_eq]
  repeat' (first | with_reducible exact frugal_quantizedHead | frugal_tac)
theorem frugal_mmapNdArray : Frugal 6 1 (of mmapNdArray) := by
  unfold mmapNdArray readNdArrayHead
  simp only [of_bind, of_pure]
  frugal_tac
theorem frugal_storageWrap : Frugal 6 1 readStorageWrap := by
  unfold readStorageWrap
  refine Frugal.bind Frugal.peekChunkId fun id => ?_
  cases id
  case ndArray => exact frugal_ndArray.bind fun _ => Frugal.pure _
  case quantizedArray => exact frugal_quantizedArray.bind fun _ => Frugal.pure _
  all_goals exact Frugal.fail _
theorem frugal_mmapStorageWrap : Frugal 6 1 mmapStorageWrap := by
  unfold mmapStorageWrap
  refine Frugal.bind Frugal.peekChunkId fun id => ?_
  cases id
  case ndArray => exact frugal_mmapNdArray.bind fun _ => Frugal.pure _
  case quantizedArray => exact frugal_mmapQuantizedArray.bind fun _ => Frugal.pure _
  all_goals exact Frugal.fail _
theorem frugal_norms : Frugal 6 1 readNorms := by
  unfold readNorms
  simp only [liftM_eq]
  frugal_tac
theorem frugal_metadata {T : Type} [Toml T] : Frugal 6 1 (readMetadata : MRd (Metadata T)) := by
  unfold readMetadata
  simp only [liftM_eq]
  frugal_tac
theorem frugal_optMetadata {T : Type} [Toml T] : Frugal 6 1 (readOptMetadata : MRd (Option (Metadata T))) := by
  unfold readOptMetadata
  refine frugal_header.bind fun h => ?_
  rcases h.ids with _ | ⟨i, _⟩
  · exact Frugal.fail _
  · repeat' (first | with_reducible exact frugal_metadata | frugal_tac)

theorem frugal_until {k j : Nat} (b : UInt8) : Frugal k j (of (readUntil b)) := Frugal.of fun d p a q h => by
  unfold readUntil at h
  cases h
  omega
theorem frugal_token {k j : Nat} (b : UInt8) (lossy : Bool) : Frugal k j (of (readToken b lossy)) := by
  unfold readToken
  rw [of_bind]
  exact (frugal_until b).bind fun _ => Frugal.lift _

/-- A word of a fastText file takes nine bytes besides its text. -/
theorem pays_ftWord (lossy : Bool) : Pays 6 24 (of (readFtWord lossy)) := by
  unfold readFtWord
  simp only [of_bind]
  refine Pays.weaken (c := 0 + (48 + (0 + 0))) ?_ (by decide)
  refine (frugal_token (j := 0) _ _).pays.bind fun _ => pays_u64.bind fun _ => (Frugal.readExact (j := 0) _).pays.bind fun _ => ?_
  exact (Frugal.of_ite (j := 0) (Frugal.fail _) (Frugal.pure _)).pays

theorem frugal_ftVocab (config : FtConfig) (lossy : Bool) : Frugal 6 1 (readFtVocab config lossy) := by
  unfold readFtVocab readFtVocabHead
  simp only [liftM_eq]
  refine Frugal.bind ?_ fun n => ?_
  · simp only [of_bind]
    refine Frugal.readU32.bind fun _ => Frugal.readU32.bind fun _ => Frugal.readU32.bind fun _ =>
      Frugal.of_ite (Frugal.fail _) ?_
    simp only [of_bind]
    exact Frugal.readU64.bind fun _ => Frugal.readU64.bind fun _ => Frugal.of_ite (Frugal.fail _) (Frugal.pure _)
  · rw [← bind_assoc' (alloc 24 n)]
    refine Frugal.bind (Frugal.table (pays_ftWord lossy) (Nat.le_refl _) AllBut.of n) fun _ => ?_
    frugal_tac

theorem frugal_ftMatrix {F : Type} [FloatBits F] : Frugal 6 1 (readFtMatrix : MRd (NdArray F)) := by
  unfold readFtMatrix
  simp only [liftM_eq]
  frugal_tac

theorem frugal_ftConfig {k j : Nat} : Frugal k j (of readFtConfig) := by
  have h1 : Frugal k j (of readLoss) := by
    unfold readLoss
    rw [of_bind]
    refine Frugal.readU32.bind fun _ => ?_
    repeat' (first | exact Frugal.pure _ | exact Frugal.fail _ | apply Frugal.of_ite)
  have h2 : Frugal k j (of readModel) := by
    unfold readModel
    rw [of_bind]
    refine Frugal.readU32.bind fun _ => ?_
    repeat' (first | exact Frugal.pure _ | exact Frugal.fail _ | apply Frugal.of_ite)
  unfold readFtConfig
  simp only [of_bind, of_pure]
  repeat' (first | with_reducible exact h1 | with_reducible exact h2 | frugal_tac)

theorem frugal_fastText {T F : Type} [Scalar F] [ScalarNat F] [FloatBits F] [ConfigToml T] (lossy : Bool) :
    Frugal 6 1 (readFastText lossy : MRd (Embeddings T FastTextSubwordVocab (NdArray F) F)) := by
  have h1 : Frugal 6 1 (of Embeddings.readFtMagic) := by
    unfold Embeddings.readFtMagic
    simp only [of_bind]
    refine Frugal.readU32.bind fun _ => Frugal.of_ite (Frugal.fail _) ?_
    simp only [of_bind]
    exact Frugal.readU32.bind fun _ => Frugal.of_ite (Frugal.fail _) (Frugal.pure _)
  have h2 : Frugal 6 1 (of Embeddings.readFtQuantized) := by
    unfold Embeddings.readFtQuantized
    simp only [of_bind]
    exact (Frugal.readExact _).bind fun _ => Frugal.of_ite (Frugal.fail _) (Frugal.pure _)
  unfold readFastText
  simp only [liftM_eq]
  repeat' (first
    | with_reducible exact h1 | with_reducible exact h2 | with_reducible exact frugal_ftConfig
    | with_reducible exact frugal_ftVocab _ _ | with_reducible exact frugal_ftMatrix | frugal_tac)

/-! ### word2vec -/

theorem takeThrough_length_le (b : UInt8) (bs : Bytes) : (takeThrough b bs).length ≤ bs.length := by
  induction bs with
  | nil => exact Nat.le_refl _
  | cons x xs ih =>
    unfold takeThrough
    split
    · simp
    · simpa using ih

theorem takeThrough_pos (b : UInt8) {bs : Bytes} (h : bs ≠ []) : 1 ≤ (takeThrough b bs).length := by
  cases bs with
  | nil => exact absurd rfl h
  | cons x xs =>
    unfold takeThrough
    split <;> simp

/-- A token ends within the data if it began there, and takes a byte at least. -/
theorem readToken_span {b : UInt8} {lossy : Bool} {d : Bytes} {p q : Nat} {s : Str} (h : readToken b lossy d p = .ok (s, q)) :
    (p < d.length → p + 1 ≤ q ∧ q ≤ d.length) ∧
    (d.length ≤ p → q = p ∧ decodeToken lossy [] = .ok s) := by
  obtain ⟨buf, r, h1, h2⟩ := Rd.bind_ok.mp h
  obtain ⟨h3, rfl⟩ := Rd.lift_ok.mp h2
  unfold readUntil at h1
  cases h1
  constructor
  · intro hp
    have h4 := takeThrough_length_le b (d.drop p)
    have h5 := takeThrough_pos b (bs := d.drop p) (by rw [ne_eq, List.drop_eq_nil_iff]; omega)
    rw [List.length_drop] at h4
    omega
  · intro hp
    have : d.drop p = [] := List.drop_eq_nil_iff.mpr hp
    rw [this] at h3 ⊢
    exact ⟨rfl, h3⟩

/-- A number takes a byte at least, within the data. -/
theorem readNumber_span {b : UInt8} {d : Bytes} {p q n : Nat} (h : readNumber b d p = .ok (n, q)) :
    p + 1 ≤ q ∧ q ≤ d.length := by
  obtain ⟨s, r, h1, h2⟩ := Rd.bind_ok.mp h
  obtain ⟨h3, rfl⟩ := Rd.lift_ok.mp h2
  by_cases hp : p < d.length
  · exact (readToken_span h1).1 hp
  · exfalso
    have h4 := ((readToken_span h1).2 (by omega)).2
    cases h4
    cases h3

/-- Distinct words: one byte each, except for one of them at the end of the data, besides the components. -/
theorem entries_span {F : Type} [FloatBits F] {e : Nat} {lossy : Bool} {d : Bytes} :
    ∀ {n p q : Nat} {es : List (Str × List F)},
      Rd.replicateM n (Embeddings.readWord2vecEntry (F := F) e lossy) d p = .ok (es, q) → (es.map (·.1)).Nodup →
      p ≤ d.length → q ≤ d.length ∧ n * (4 * e) + n + p ≤ q + 1 := by
  intro n
  induction n with
  | zero =>
    intro p q es h _ hp
    cases h
    omega
  | succ n ih =>
    intro p q es h hn hp
    obtain ⟨⟨w, xs⟩, r, h1, h2⟩ := Rd.bind_ok.mp h
    obtain ⟨es', r', h3, h4⟩ := Rd.bind_ok.mp h2
    cases h4
    obtain ⟨s, p1, h5, h6⟩ := Rd.bind_ok.mp h1
    obtain ⟨fs, p2, h7, h8⟩ := Rd.bind_ok.mp h6
    cases h8
    obtain ⟨bs, p3, h9, h10⟩ := Rd.bind_ok.mp h7
    cases h10
    obtain ⟨h11, _, h12⟩ := readExact_ok h9
    have hs := readToken_span h5
    rw [List.map_cons, List.nodup_cons] at hn
    by_cases hlt : p < d.length
    · have := hs.1 hlt
      have hr : r ≤ d.length := by
        by_cases h0 : 4 * e = 0
        · omega
        · have := h12 h0; omega
      have := ih h3 hn.2 hr
      rw [Nat.succ_mul]
      omega
    · obtain ⟨h13, h14⟩ := hs.2 (by omega)
      have h0 : 4 * e = 0 := by
        by_cases h0 : 4 * e = 0
        · exact h0
        · have := h12 h0; omega
      cases n with
      | zero =>
        cases h3
        omega
      | succ n =>
        exfalso
        obtain ⟨⟨w', xs'⟩, r2, g1, g2⟩ := Rd.bind_ok.mp h3
        obtain ⟨es'', r3, g3, g4⟩ := Rd.bind_ok.mp g2
        cases g4
        obtain ⟨s', p1', g5, g6⟩ := Rd.bind_ok.mp g1
        obtain ⟨fs', p2', g7, g8⟩ := Rd.bind_ok.mp g6
        cases g8
        have g9 := ((readToken_span g5).2 (by omega)).2
        rw [h14] at g9
        cases g9
        exact hn.1 (by simp)

theorem replicateM_of (m : Rd α) (n : Nat) : replicateM n (of m) = of (Rd.replicateM n m) := by
  induction n with
  | zero => rfl
  | succ n ih =>
    show (of m >>= fun a => replicateM n (of m) >>= fun as => pure (a :: as)) = of (m >>= fun a => Rd.replicateM n m >>= _)
    rw [ih, of_bind]
    congr 1
    funext a
    rw [of_bind]
    rfl

/-- The requests of two steps. -/
theorem fst_bind {m : MRd α} {f : α → MRd β} {d : Bytes} {p q : Nat} {a : α} (h : (m d p).2 = .ok (a, q)) :
    ((m >>= f) d p).1 = (m d p).1 ++ (f a d q).1 := by
  rw [bind_apply, andThen_ok h]

theorem request_fst {m : Rd Unit} {n : Nat} {d : Bytes} {p q : Nat} {u : Unit} (h : m d p = .ok (u, q)) :
    (request m n d p).1 = [n] := by
  unfold request
  rw [h]

/-- Accepted word2vec data. -/
theorem pays_word2vec {T F : Type} [Scalar F] [FloatBits F] (lossy : Bool) :
    Pays 24 0 (readWord2vecRaw lossy : MRd (Embeddings T SimpleVocab (NdArray F) F)) := by
  intro d p a q h
  have h' := h
  rw [erases_word2vec lossy d p] at h'
  obtain ⟨n, p1, h1, h2⟩ := Rd.bind_ok.mp h'
  obtain ⟨e, p2, h3, h4⟩ := Rd.bind_ok.mp h2
  obtain ⟨u, p3, h5, h6⟩ := Rd.bind_ok.mp h4
  obtain ⟨u', p4, h7, h8⟩ := Rd.bind_ok.mp h6
  obtain ⟨es, p5, h9, h10⟩ := Rd.bind_ok.mp h8
  obtain ⟨v, p6, h11, h12⟩ := Rd.bind_ok.mp h10
  have e5 := (Rd.lift_ok.mp h5).2
  have e7 := (Rd.lift_ok.mp h7).2
  obtain ⟨h13, e11⟩ := Rd.lift_ok.mp h11
  have e12 := (Rd.lift_ok.mp h12).2
  have hn := (SimpleVocab.new_eq_ok.mp h13).1
  have s1 := readNumber_span h1
  have s2 := readNumber_span h3
  have s3 := entries_span h9 hn (by omega)
  have hr : (readWord2vecRaw lossy d p : List Nat × Res (Embeddings T SimpleVocab (NdArray F) F × Nat)).1 =
      [4 * (n * e), 24 * n] := by
    have g5 : ((allocArray 4 [n, e] : MRd Unit) d p2).2 = .ok (u, p3) := (Erases.allocArray _ _ d p2).trans h5
    have g7 : ((alloc 24 n : MRd Unit) d p3).2 = .ok (u', p4) := (Erases.alloc _ _ d p3).trans h7
    unfold readWord2vecRaw
    rw [fst_bind (m := liftM (readNumber 32)) h1, fst_bind (m := liftM (readNumber 10)) h3, fst_bind g5, fst_bind g7,
      replicateM_of, fst_bind (m := of (Rd.replicateM _ _)) h9, fst_bind (m := liftM (Rd.lift _)) h11]
    unfold allocArray alloc
    rw [request_fst h5, request_fst h7]
    simp [liftM_eq, of]
  rw [hr, Nat.min_eq_left (by omega), Nat.min_eq_left (by omega)]
  have : n * (4 * e) = 4 * (n * e) := by rw [Nat.mul_left_comm]
  simp only [List.sum_cons, List.sum_nil]
  omega

/-! ### Text -/

section
variable {T F : Type} [FloatText F]

theorem requested_snd (r : Res Unit) (n : Nat) : (requested r n).2 = r := by cases r <;> rfl

theorem erases_textDims (lossy : Bool) (d : Bytes) (pos : Nat) :
    (readTextDimsRaw lossy d pos : List Nat × Res (Embeddings T SimpleVocab (NdArray F) F)).2 =
      Embeddings.readTextDimsRaw lossy d pos := by
  have h : ∀ n k, (allocTable (some (n, k))).2 = Embeddings.allocTable (some (n, k)) := by
    intro n k
    unfold allocTable Embeddings.allocTable
    rw [andThen_snd]
    simp only [requested_snd]
  unfold readTextDimsRaw Embeddings.readTextDimsRaw
  rw [andThen_snd]
  congr 1
  funext r
  rw [andThen_snd]
  congr 1
  funext r'
  unfold readEmbeds Embeddings.readEmbeds
  rw [andThen_snd, h]

theorem erases_floretText (d : Bytes) (pos : Nat) :
    (readFloretText d pos : List Nat × Res (Embeddings T FloretSubwordVocab (NdArray F) F)).2 = Embeddings.readFloret d pos := by
  unfold readFloretText Embeddings.readFloret
  rw [andThen_snd]
  congr 1
  funext r
  rw [andThen_snd]
  congr 1
  funext u
  rw [andThen_snd, requested_snd]

theorem readTextLine_length' {lossy : Bool} {l : Bytes} {r : Str × List F} (h : Embeddings.readTextLine lossy l = .ok r) :
    r.2.length + 1 ≤ l.length := by
  unfold Embeddings.readTextLine at h
  obtain ⟨s, h1, h⟩ := Res.bind_eq_ok.mp h
  have hs := (decodeToken_size h1).2
  have ht := ((parts_spec s _).mp rfl).size.1
  cases hp : parts s with
  | nil => rw [hp] at h; cases h
  | cons w ps =>
    rw [hp] at h ht
    dsimp only at h
    obtain ⟨xs, h2, h⟩ := Res.bind_eq_ok.mp h
    cases h
    have := Res.mapM_length h2
    rw [List.length_cons] at ht
    dsimp only
    omega

omit [FloatText F] in
/-- Each line pays for the place of its word and of its components. -/
theorem rows_length {f : Bytes → Res (Str × List F)} {ls : List Bytes} {rs : List (Str × List F)}
    (hf : ∀ l ∈ ls, ∀ r, f l = .ok r → r.2.length + 1 ≤ l.length) (h : ls.map f = rs.map .ok) :
    (rs.map (·.2)).flatten.length + rs.length ≤ (ls.map List.length).sum := by
  induction ls generalizing rs with
  | nil =>
    have : rs = [] := by simpa using h.symm
    subst this
    simp
  | cons l ls ih =>
    cases rs with
    | nil => simp at h
    | cons r rs =>
      simp only [List.map_cons, List.cons.injEq] at h
      have h1 := hf l (by simp) r h.1
      have h2 := ih (fun x hx => hf x (List.mem_cons_of_mem _ hx)) h.2
      simp only [List.map_cons, List.flatten_cons, List.length_append, List.sum_cons, List.length_cons]
      omega

/-- Accepted text with dimensions. -/
theorem textDims_sum {lossy : Bool} {d : Bytes} {pos : Nat} {e : Embeddings T SimpleVocab (NdArray F) F}
    (h : Embeddings.readTextDimsRaw lossy d pos = .ok e) :
    (readTextDimsRaw lossy d pos : List Nat × Res (Embeddings T SimpleVocab (NdArray F) F)).1.sum ≤ 24 * (d.length - pos) := by
  unfold Embeddings.readTextDimsRaw at h
  obtain ⟨⟨n, p1⟩, h1, h⟩ := Res.bind_eq_ok.mp h
  obtain ⟨⟨k, p2⟩, h2, h⟩ := Res.bind_eq_ok.mp h
  dsimp only at h h2
  unfold Embeddings.readEmbeds at h
  obtain ⟨_, h3, h⟩ := Res.bind_eq_ok.mp h
  obtain ⟨rows, h4, h⟩ := Res.bind_eq_ok.mp h
  obtain ⟨shape, h5, h⟩ := Res.bind_eq_ok.mp h
  obtain ⟨m, h6, h⟩ := Res.bind_eq_ok.mp h
  have hs : shape = (n, k) ∧ rows.length = n := by
    unfold Embeddings.tableShape at h5
    dsimp only at h5
    split at h5
    · cases h5
    · split at h5
      · cases h5
      · split at h5
        · cases h5
        · cases h5; exact ⟨rfl, by omega⟩
  obtain ⟨rfl, hr⟩ := hs
  have h7 := fromShapeVec_ok h6
  have h8 := rows_length (fun l _ r hr => readTextLine_length' hr) (Res.mapM_eq_ok_iff.mp h4)
  have h9 := textLines_length (d.drop p2)
  rw [List.length_drop] at h9
  have s1 := readNumber_span h1
  have s2 := readNumber_span h2
  have hsum : (readTextDimsRaw lossy d pos : List Nat × Res (Embeddings T SimpleVocab (NdArray F) F)).1.sum ≤
      24 * n + 4 * (n * k) := by
    unfold readTextDimsRaw
    rw [andThen_ok (a := (n, p1)) h1]
    dsimp only
    rw [andThen_ok (a := (k, p2)) h2]
    dsimp only
    unfold readEmbeds allocTable
    dsimp only
    unfold Embeddings.allocTable at h3
    dsimp only at h3
    obtain ⟨u, h10, h11⟩ := Res.bind_eq_ok.mp h3
    rw [h10, h11]
    simp [andThen, requested]
  dsimp only at h7
  omega

/-- Accepted floret text. -/
theorem floretText_sum {d : Bytes} {pos : Nat} {e : Embeddings T FloretSubwordVocab (NdArray F) F}
    (h : Embeddings.readFloret d pos = .ok e) :
    (readFloretText d pos : List Nat × Res (Embeddings T FloretSubwordVocab (NdArray F) F)).1.sum ≤ 4 * (d.length - pos) := by
  unfold Embeddings.readFloret at h
  obtain ⟨⟨hd', p⟩, h1, h⟩ := Res.bind_eq_ok.mp h
  obtain ⟨_, h2, h⟩ := Res.bind_eq_ok.mp h
  obtain ⟨_, h3, h⟩ := Res.bind_eq_ok.mp h
  obtain ⟨rows, h5, h'⟩ := Res.bind_eq_ok.mp h
  obtain ⟨m, h6, -⟩ := Res.bind_eq_ok.mp h'
  have h7 := fromShapeVec_ok h6
  have h8 := flatten_length_le (fun l _ r hr => readFloretLine_length hr) (Res.mapM_eq_ok_iff.mp h5)
  have h9 := bufLines_length (d.drop p)
  rw [List.length_drop] at h9
  have hp : pos ≤ p := by
    obtain ⟨_, _, g1, h1⟩ := Rd.bind_ok.mp h1
    obtain ⟨_, _, g2, h1⟩ := Rd.bind_ok.mp h1
    obtain ⟨_, _, g3, h1⟩ := Rd.bind_ok.mp h1
    obtain ⟨_, _, g4, h1⟩ := Rd.bind_ok.mp h1
    obtain ⟨_, _, g5, h1⟩ := Rd.bind_ok.mp h1
    obtain ⟨_, r, g6, h1⟩ := Rd.bind_ok.mp h1
    obtain ⟨_, r', g7, h1⟩ := Rd.bind_ok.mp h1
    obtain ⟨_, r'', g8, h1⟩ := Rd.bind_ok.mp h1
    cases h1
    have := readNumber_span g1
    have := readNumber_span g2
    have := readNumber_span g3
    have := readNumber_span g4
    have := readNumber_span g5
    have := readNumber_span g6
    have s7 := readToken_span g7
    have s8 := readToken_span g8
    have : r ≤ r' := by
      by_cases hr : r < d.length
      · have := s7.1 hr; omega
      · have := (s7.2 (by omega)).1; omega
    have : r' ≤ p := by
      by_cases hr : r' < d.length
      · have := s8.1 hr; omega
      · have := (s8.2 (by omega)).1; omega
    omega
  have hsum : (readFloretText d pos : List Nat × Res (Embeddings T FloretSubwordVocab (NdArray F) F)).1.sum ≤
      4 * (hd'.nBuckets * hd'.embedLen) := by
    unfold readFloretText
    rw [andThen_ok (a := (hd', p)) h1]
    dsimp only at h2 h3 ⊢
    rw [andThen_ok (a := ()) h2]
    dsimp only
    rw [h3]
    simp [andThen, requested]
  dsimp only at h7
  omega

end

/-! ## The claims -/

/-- Specification: `m` is the reader `m'`, and when it accepts data, it has requested at most `k` times as many bytes as it has
passed. -/
def Proportional (k : Nat) (m : MRd α) (m' : Rd α) : Prop :=
  (∀ d p, (m d p).2 = m' d p) ∧
  ∀ d p a q, p ≤ d.length → m' d p = .ok (a, q) → (m d p).1.sum ≤ k * (min q d.length - p)

/-- Specification: of these requests, all but `j` together are at most `k` times as many bytes as there are. -/
def ProportionalBut (j k bytes : Nat) (rs : List Nat) : Prop :=
  ∃ big rest, big.length ≤ j ∧ rs.Perm (big ++ rest) ∧ rest.sum ≤ k * bytes

theorem Frugal.proportional {k j : Nat} {m : MRd α} {m' : Rd α} (h : Frugal k j m) (he : Erases m m') :
    Proportional k m m' := by
  refine ⟨he, fun d p a q hp hq => ?_⟩
  have := h.pays d p a q ((he d p).trans hq)
  rw [Nat.min_eq_left hp] at this
  rw [Nat.mul_sub]
  omega

theorem AllBut.proportionalBut {k j : Nat} {m : MRd α} (h : AllBut k j m) {d : Bytes} {p : Nat} (hp : p ≤ d.length) :
    ProportionalBut j k (d.length - p) (m d p).1 := by
  obtain ⟨big, rest, h1, h2, h3⟩ := h d p
  rw [Nat.min_eq_left hp] at h3
  exact ⟨big, rest, h1, h2, by rw [Nat.mul_sub]; omega⟩

/-- **C102**, accepted chunks: six times as many bytes as the chunk takes in the data. -/
theorem c102_chunks_partial {T : Type} [Toml T] :
    Proportional 6 readHeader Header.read ∧ Proportional 6 (readMetadata : MRd (Metadata T)) FF.readMetadata ∧
    Proportional 6 readSimple SimpleVocab.read ∧
    Proportional 6 (readBucketed .bucketSubwordVocab : MRd BucketSubwordVocab) (FF.readBucketed .bucketSubwordVocab) ∧
    Proportional 6 (readBucketed .fastTextSubwordVocab : MRd FastTextSubwordVocab) (FF.readBucketed .fastTextSubwordVocab) ∧
    Proportional 6 readExplicit FF.readExplicit ∧ Proportional 6 readFloret FF.readFloret ∧
    Proportional 6 readVocabWrap FF.readVocabWrap ∧
    Proportional 6 readNdArray FF.readNdArray ∧ Proportional 6 readQuantizedArray FF.readQuantizedArray ∧
    Proportional 6 mmapQuantizedArray FF.mmapQuantizedArray ∧
    Proportional 6 readStorageWrap FF.readStorageWrap ∧ Proportional 6 mmapStorageWrap FF.mmapStorageWrap ∧
    Proportional 6 readNorms FF.readNorms :=
  ⟨frugal_header.proportional erases_header, frugal_metadata.proportional erases_metadata,
   frugal_simple.proportional erases_simple, (frugal_bucketed _).proportional (erases_bucketed _),
   (frugal_bucketed _).proportional (erases_bucketed _), frugal_explicit.proportional erases_explicit,
   frugal_floret.proportional erases_floret, frugal_vocabWrap.proportional erases_vocabWrap,
   frugal_ndArray.proportional erases_ndArray, frugal_quantizedArray.proportional erases_quantizedArray,
   frugal_mmapQuantizedArray.proportional erases_mmapQuantizedArray,
   frugal_storageWrap.proportional erases_storageWrap, frugal_mmapStorageWrap.proportional erases_mmapStorageWrap,
   frugal_norms.proportional erases_norms⟩

/-- **C102**, other formats: six times as many bytes as an accepted fastText file (whatever the outcome, all requests but one), 24 times as an accepted word2vec file or
text file with dimensions, four times as an accepted floret text. -/
theorem c102_formats_partial {T F : Type} [Scalar F] [ScalarNat F] [FloatBits F] [ConfigToml T] [FloatText F] (lossy : Bool) :
    Proportional 6 (readFastText lossy : MRd (Embeddings T FastTextSubwordVocab (NdArray F) F)) (Embeddings.readFastText lossy) ∧
    (∀ d p, p ≤ d.length → ProportionalBut 1 6 (d.length - p)
      (readFastText lossy d p : List Nat × Res (Embeddings T FastTextSubwordVocab (NdArray F) F × Nat)).1) ∧
    Proportional 24 (readWord2vecRaw lossy : MRd (Embeddings T SimpleVocab (NdArray F) F)) (Embeddings.readWord2vecRaw lossy) ∧
    (∀ d p, (readTextDimsRaw lossy d p : List Nat × Res (Embeddings T SimpleVocab (NdArray F) F)).2 =
      Embeddings.readTextDimsRaw lossy d p) ∧
    (∀ d p (e : Embeddings T SimpleVocab (NdArray F) F), Embeddings.readTextDimsRaw lossy d p = .ok e →
      (readTextDimsRaw lossy d p : List Nat × Res (Embeddings T SimpleVocab (NdArray F) F)).1.sum ≤ 24 * (d.length - p)) ∧
    (∀ d p, (readFloretText d p : List Nat × Res (Embeddings T FloretSubwordVocab (NdArray F) F)).2 =
      Embeddings.readFloret d p) ∧
    (∀ d p (e : Embeddings T FloretSubwordVocab (NdArray F) F), Embeddings.readFloret d p = .ok e →
      (readFloretText d p : List Nat × Res (Embeddings T FloretSubwordVocab (NdArray F) F)).1.sum ≤ 4 * (d.length - p)) := by
  refine ⟨(frugal_fastText lossy).proportional (erases_fastText lossy),
    fun d p hp => (frugal_fastText lossy).allBut.proportionalBut hp, ⟨erases_word2vec lossy, fun d p a q hp hq => ?_⟩,
    erases_textDims lossy, fun _ _ _ => textDims_sum, erases_floretText, fun _ _ _ => floretText_sum⟩
  have := pays_word2vec lossy d p a q ((erases_word2vec lossy d p).trans hq)
  rw [Nat.min_eq_left hp] at this
  rw [Nat.mul_sub]
  omega

/-- Requests of a complete file, with any readers of vocabulary and storage that are themselves frugal. -/
theorem embeddings_requests {T V S : Type} [Toml T] {readVocab : MRd V} {readStorage : MRd S}
    (hv : Frugal 6 2 readVocab) (hs : Frugal 6 1 readStorage) {d : Bytes} {pos : Nat} (hp : pos ≤ d.length) :
    ProportionalBut 2 6 (d.length - pos) (readEmbeddings (T := T) readVocab readStorage d pos).1 ∧
    ∀ e, (readEmbeddings (T := T) readVocab readStorage d pos).2 = .ok e →
      ProportionalBut 1 6 (d.length - pos) (readEmbeddings (T := T) readVocab readStorage d pos).1 ∧
      (e.norms ≠ none → (readEmbeddings (T := T) readVocab readStorage d pos).1.sum ≤ 6 * (d.length - pos)) := by
  have hh : Frugal 6 2 (readHead (T := T) readVocab) :=
    (frugal_optMetadata.weaken (by decide)).bind fun _ => hv.bind fun _ => Frugal.pure _
  have hn := frugal_norms
  unfold readEmbeddings
  cases h1 : (readHead (T := T) readVocab d pos).2 with
  | err x =>
    have := hh.allBut.proportionalBut hp
    refine ⟨?_, ?_⟩
    · unfold andThen; rw [h1]; exact this
    · intro e he; rw [andThen_snd, h1] at he; cases he
  | panic =>
    have := hh.allBut.proportionalBut hp
    refine ⟨?_, ?_⟩
    · unfold andThen; rw [h1]; exact this
    · intro e he; rw [andThen_snd, h1] at he; cases he
  | ok r =>
    obtain ⟨⟨m, v⟩, p1⟩ := r
    have p1' := hh.pays d pos _ p1 h1
    rw [Nat.min_eq_left hp] at p1'
    rw [andThen_ok h1]
    dsimp only
    cases h2 : (readStorage d p1).2 with
    | err x =>
      refine ⟨?_, ?_⟩
      · obtain ⟨big, rest, g1, g2, g3⟩ := hs.allBut d p1
        refine ⟨big, (readHead (T := T) readVocab d pos).1 ++ rest, by omega, ?_, ?_⟩
        · unfold andThen; rw [h2]
          refine (g2.append_left _).trans ?_
          rw [← List.append_assoc, ← List.append_assoc]
          exact List.perm_append_comm.append_right rest
        · rw [List.sum_append, Nat.mul_sub]; omega
      · intro e he; rw [andThen_snd, h2] at he; cases he
    | panic =>
      refine ⟨?_, ?_⟩
      · obtain ⟨big, rest, g1, g2, g3⟩ := hs.allBut d p1
        refine ⟨big, (readHead (T := T) readVocab d pos).1 ++ rest, by omega, ?_, ?_⟩
        · unfold andThen; rw [h2]
          refine (g2.append_left _).trans ?_
          rw [← List.append_assoc, ← List.append_assoc]
          exact List.perm_append_comm.append_right rest
        · rw [List.sum_append, Nat.mul_sub]; omega
      · intro e he; rw [andThen_snd, h2] at he; cases he
    | ok r =>
      obtain ⟨st, p2⟩ := r
      have p2' := hs.pays d p1 st p2 h2
      rw [andThen_ok h2]
      dsimp only
      have hreq : ∀ {γ : Type} (f : Option (NdNorms F32 × Nat) → List Nat × Res γ), (∀ o, (f o).1 = []) →
          (andThen ((readNorms d p2).1, Embeddings.orNone (readNorms d p2).2) f).1 = (readNorms d p2).1 := by
        intro γ f hf
        unfold andThen
        cases (readNorms d p2).2 <;> simp [Embeddings.orNone, hf]
      rw [hreq _ fun _ => rfl]
      obtain ⟨big, rest, g1, g2, g3⟩ := hn.allBut d p2
      have key : ProportionalBut 1 6 (d.length - pos)
          ((readHead (T := T) readVocab d pos).1 ++ ((readStorage d p1).1 ++ (readNorms d p2).1)) := by
        refine ⟨big, (readHead (T := T) readVocab d pos).1 ++ (readStorage d p1).1 ++ rest, g1, ?_, ?_⟩
        · rw [← List.append_assoc]
          refine (g2.append_left _).trans ?_
          rw [← List.append_assoc, ← List.append_assoc]
          exact List.perm_append_comm.append_right rest
        · rw [List.sum_append, List.sum_append, Nat.mul_sub]; omega
      refine ⟨?_, fun e he => ⟨key, fun hne => ?_⟩⟩
      · obtain ⟨b, r, k1, k2⟩ := key
        exact ⟨b, r, by omega, k2⟩
      · cases h3 : (readNorms d p2).2 with
        | ok r =>
          have := hn.pays d p2 r.1 r.2 h3
          have := mul_min_le 6 r.2 d.length
          rw [List.sum_append, List.sum_append, Nat.mul_sub]
          omega
        | err x =>
          rw [h3] at he
          unfold andThen Embeddings.orNone at he
          cases he
          exact absurd rfl hne
        | panic =>
          rw [h3] at he
          unfold andThen Embeddings.orNone at he
          cases he

/-- **C102**, complete files: whatever the outcome, all requests but two are at most six times as many bytes as the data. If the
file is accepted, all but one are; and if the embeddings have norms, all are. Here for the vocabularies and storages with any
type, read and mapped. -/
theorem c102_files_partial {T : Type} [Toml T] (d : Bytes) (pos : Nat) (hp : pos ≤ d.length) (m : MRd StorageWrap)
    (m' : Rd StorageWrap) (hm : (m, m') = (readStorageWrap, FF.readStorageWrap) ∨ (m, m') = (mmapStorageWrap, FF.mmapStorageWrap)) :
    (readEmbeddings (T := T) readVocabWrap m d pos).2 = Embeddings.readWith m' d pos ∧
    ProportionalBut 2 6 (d.length - pos) (readEmbeddings (T := T) readVocabWrap m d pos).1 ∧
    ∀ e : Embeddings T VocabWrap StorageWrap F32, Embeddings.readWith m' d pos = .ok e →
      ProportionalBut 1 6 (d.length - pos) (readEmbeddings (T := T) readVocabWrap m d pos).1 ∧
      (e.norms ≠ none → (readEmbeddings (T := T) readVocabWrap m d pos).1.sum ≤ 6 * (d.length - pos)) := by
  have hf : Frugal 6 1 m ∧ Erases m m' := by
    rcases hm with h | h <;> cases h
    · exact ⟨frugal_storageWrap, erases_storageWrap⟩
    · exact ⟨frugal_mmapStorageWrap, erases_mmapStorageWrap⟩
  have he : (readEmbeddings (T := T) readVocabWrap m d pos).2 = Embeddings.readWith m' d pos :=
    erases_embeddings erases_vocabWrap hf.2 d pos
  have := embeddings_requests (T := T) frugal_vocabWrap hf.1 hp
  rw [he] at this
  exact ⟨he, this⟩

/-- A file without words, whose norms chunk announces `n` norms and ends there. -/
def damagedNorms (n : Nat) : Bytes :=
  magic ++ leBytes 4 0 ++ leBytes 4 1 ++ leBytes 4 1 ++
    (leBytes 4 1 ++ leBytes 8 8 ++ leBytes 8 0) ++
    (leBytes 4 2 ++ leBytes 8 0 ++ leBytes 8 0 ++ leBytes 4 0 ++ leBytes 4 10 ++ leBytes 4 0) ++
    (leBytes 4 6 ++ leBytes 8 0 ++ leBytes 8 n ++ leBytes 4 10)

/-- **C102** is false. The file `damagedNorms` is accepted, without norms, after memory for the norms was requested: 2^42
bytes, for a file of 92. And data that is rejected in the end costs the memory that it announces: 20 bytes of a
vocabulary cost 24 * 2^50 bytes, and 16 bytes of a word2vec file 28 * 10^12. -/
theorem c102_false :
    (∃ (d : Bytes) (e : Embeddings Str VocabWrap StorageWrap F32), d.length = 92 ∧
      @Embeddings.read _ _ _ exampleToml _ _ d 0 = .ok e ∧
      2 ^ 42 ≤ (@readEmbeddings _ _ _ exampleToml readVocabWrap readStorageWrap d 0).1.sum) ∧
    (∃ d : Bytes, d.length = 20 ∧ SimpleVocab.read d 0 = .err .io ∧ 24 * 2 ^ 50 ≤ (readSimple d 0).1.sum) ∧
    (∃ d : Bytes, d.length = 16 ∧
      (Embeddings.readWord2vecRaw false d 0 : Res (Embeddings Unit SimpleVocab (NdArray F32) F32 × Nat)) = .err .io ∧
      28 * 10 ^ 12 ≤ (readWord2vecRaw false d 0 : List Nat × Res (Embeddings Unit SimpleVocab (NdArray F32) F32 × Nat)).1.sum) := by
  refine ⟨?_, ⟨leBytes 4 1 ++ leBytes 8 0 ++ leBytes 8 (2 ^ 50), ?_, ?_, ?_⟩, ?_⟩
  · have h : (@Embeddings.read _ VocabWrap StorageWrap exampleToml _ _ (damagedNorms (2 ^ 40)) 0).map (fun e => e.norms.isNone) =
        .ok true := by decide +kernel
    obtain ⟨e, he, _⟩ := Res.map_eq_ok.mp h
    exact ⟨_, e, by decide +kernel, he, by decide +kernel⟩
  · decide +kernel
  · decide +kernel
  · decide +kernel
  · refine ⟨"1000000000000 1\n".toList.map fun c => UInt8.ofNat c.toNat, ?_, ?_, ?_⟩
    · decide +kernel
    · decide +kernel
    · decide +kernel

/-- The requests for `exampleFile` and their sum, compared with its length; `c102_files_partial` applied to it. Accepted files in
other formats. -/
example : (@readEmbeddings _ _ _ exampleToml readVocabWrap readStorageWrap exampleFile 0).1 = [8, 48, 1, 2, 8] ∧
    exampleFile.length = 88 ∧
    (readWord2vecRaw false ("1 1\na ".toList.map (fun c => UInt8.ofNat c.toNat) ++ [0, 0, 0, 0]) 0 :
      List Nat × Res (Embeddings Unit SimpleVocab (NdArray F32) F32 × Nat)).1 = [4, 24] ∧
    (@readTextDimsRaw Unit F32 exampleFloatText false ("1 2\na 1 2\n".toList.map fun c => UInt8.ofNat c.toNat) 0).1 = [24, 8] ∧
    (@readFloretText Unit F32 exampleFloatText ("2 2 3 6 3 7 < >\n0 1 2\n1 3 4\n".toList.map fun c => UInt8.ofNat c.toNat) 0).1 =
      [16] := by
  refine ⟨?_, ?_, ?_, ?_, ?_⟩ <;> decide +kernel

example := @c102_files_partial _ exampleToml exampleFile 0 (by decide) _ _ (.inl rfl)

example : ∃ e : Embeddings Str VocabWrap StorageWrap F32,
    @Embeddings.readWith _ _ _ exampleToml _ FF.readStorageWrap exampleFile 0 = .ok e := by
  have h : (@Embeddings.readWith _ VocabWrap StorageWrap exampleToml _ FF.readStorageWrap exampleFile 0).map (fun e => e.norms.isNone) =
      .ok true := by decide +kernel
  obtain ⟨e, he, _⟩ := Res.map_eq_ok.mp h
  exact ⟨e, he⟩

/-- An accepted chunk (`c102_chunks_partial`): the empty word costs 24 bytes for four in the data. -/
example : (SimpleVocab.read (leBytes 4 1 ++ leBytes 8 0 ++ leBytes 8 1 ++ leBytes 4 0) 0).map (fun r => (r.1.words, r.2)) =
      .ok ([[]], 24) ∧
    (readSimple (leBytes 4 1 ++ leBytes 8 0 ++ leBytes 8 1 ++ leBytes 4 0) 0).1 = [24, 0] := by
  refine ⟨?_, ?_⟩ <;> decide +kernel

end MRd
end FF
