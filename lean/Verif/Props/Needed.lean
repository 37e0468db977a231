import Verif.Props.Requests
import Verif.Props.Rewrite

/-!
# C106: accepted data costs exactly the memory that its content needs

C102 bounds the memory that is requested. When the data is accepted, more can be said: the requests are a function of the value
that is returned. Each table, string and matrix is requested once, in the order of the data, and with the size it has in the end.
-/

namespace FF.MRd

open FF Rd

variable {α β : Type}

/-- Specification: `m` is the reader `m'`, and when it accepts data, the requests that it has made are those that the value
needs. -/
def Exactly (needs : α → List Nat) (m : MRd α) (m' : Rd α) : Prop :=
  (∀ d p, (m d p).2 = m' d p) ∧ ∀ d p a q, m' d p = .ok (a, q) → (m d p).1 = needs a

/-! Sizes of the heap blocks behind the values: 24 bytes for the handle of a string and 32 with its index, 8-byte words;
four bytes for a component and for a chunk identifier, one for a code. -/

/-- A list of words. -/
def needsWords (ws : List Str) : List Nat := 24 * ws.length :: ws.map strLen
/-- A list of n-grams with their indices. -/
def needsNgrams (gs : List Str) : List Nat := 32 * gs.length :: gs.map strLen
/-- A vocabulary. -/
def needsVocab : VocabWrap → List Nat
  | .simple v => needsWords v.words
  | .bucket v => needsWords v.words
  | .fastText v => needsWords v.words
  | .explicit v => needsWords v.words ++ needsNgrams v.indexer.ngrams
  | .floret v => [strLen v.bow, strLen v.eow]
/-- A matrix. -/
def needsMatrix {F : Type} (m : Mat F) : List Nat := [4 * (m.rows.length * m.cols)]
/-- A product quantizer: the projection, if there is one, is a square matrix. -/
def needsQuantizer (q : Pq F32) : List Nat :=
  (if q.projection.isSome then [4 * (q.quantizers.length * q.subDim) ^ 2] else []) ++
    [4 * (q.quantizers.length * q.nCentroids * q.subDim)]
/-- Norms, if there are any. -/
def needsNorms : Option (List F32) → List Nat
  | some ns => [4 * ns.length]
  | none => []
/-- A storage; mapped memory is not requested. -/
def needsStorage : StorageWrap → List Nat
  | .ndArray a => needsMatrix a.inner
  | .quantized a => needsQuantizer a.quantizer ++ needsNorms a.norms ++ [a.codes.rows.length * a.quantizer.quantizers.length]
  | .mmapArray _ => []
  | .mmapQuantized a => needsQuantizer a.quantizer ++ needsNorms a.norms

/-! ## Steps -/

theorem bind_ok {m : MRd α} {f : α → MRd β} {d : Bytes} {p q : Nat} {b : β} (h : ((m >>= f) d p).2 = .ok (b, q)) :
    ∃ a p1, (m d p).2 = .ok (a, p1) ∧ (f a d p1).2 = .ok (b, q) ∧ ((m >>= f) d p).1 = (m d p).1 ++ (f a d p1).1 := by
  rw [bind_apply, andThen_snd] at h
  obtain ⟨⟨a, p1⟩, h1, h2⟩ := Res.bind_eq_ok.mp h
  exact ⟨a, p1, h1, h2, by rw [bind_apply, andThen_ok h1]⟩

theorem of_bind_ok {m : Rd α} {f : α → MRd β} {d : Bytes} {p q : Nat} {b : β} (h : ((of m >>= f) d p).2 = .ok (b, q)) :
    ∃ a p1, m d p = .ok (a, p1) ∧ (f a d p1).2 = .ok (b, q) ∧ ((of m >>= f) d p).1 = (f a d p1).1 :=
  bind_ok h

theorem request_bind_ok {m : Rd Unit} {n : Nat} {f : Unit → MRd β} {d : Bytes} {p q : Nat} {b : β}
    (h : ((request m n >>= f) d p).2 = .ok (b, q)) :
    ∃ p1, m d p = .ok ((), p1) ∧ (f () d p1).2 = .ok (b, q) ∧ ((request m n >>= f) d p).1 = n :: (f () d p1).1 := by
  obtain ⟨⟨⟩, p1, h1, h2, h3⟩ := bind_ok h
  have h1' : m d p = .ok ((), p1) := by rw [← h1]; exact (Erases.request m n d p).symm
  refine ⟨p1, h1', h2, ?_⟩
  rw [h3]
  unfold request
  rw [h1']
  rfl

theorem replicateM_ok {m : MRd α} {R : α → List Nat} (hm : ∀ d p a q, (m d p).2 = .ok (a, q) → (m d p).1 = R a)
    {n : Nat} {d : Bytes} {p q : Nat} {as : List α} (h : (replicateM n m d p).2 = .ok (as, q)) :
    as.length = n ∧ (replicateM n m d p).1 = as.flatMap R := by
  induction n generalizing p q as with
  | zero =>
    cases h
    exact ⟨rfl, rfl⟩
  | succ n ih =>
    obtain ⟨a, p1, h1, h2, h3⟩ := bind_ok h
    obtain ⟨as', p2, h4, h5, h6⟩ := bind_ok h2
    cases h5
    obtain ⟨i1, i2⟩ := ih h4
    refine ⟨by simp [i1], ?_⟩
    show ((m >>= _) d p).1 = _
    rw [h3, h6, hm _ _ _ _ h1, i2]
    show R a ++ (as'.flatMap R ++ []) = _
    simp

theorem flatMap_one {γ : Type} (f : α → γ) (l : List α) : l.flatMap (fun a => [f a]) = l.map f := by
  induction l with
  | nil => rfl
  | cons a l ih => rw [List.flatMap_cons, ih]; rfl

theorem pure_fst (a : α) (d : Bytes) (p : Nat) : ((pure a : MRd α) d p).1 = [] := rfl

/-! ## Vocabularies -/

theorem readExact_length {n : Nat} {d bs : Bytes} {p q : Nat} (h : Rd.readExact n d p = .ok (bs, q)) : bs.length = n := by
  obtain ⟨_, rfl, h2⟩ := readExact_ok h
  by_cases h0 : n = 0
  · subst h0; simp
  · have := h2 h0
    simp; omega

theorem decode_len {bs : Bytes} {s : Str} {d : Bytes} {p q : Nat}
    (h : Rd.lift (Res.ofOption .format (utf8Decode bs)) d p = .ok (s, q)) : strLen s = bs.length := by
  unfold Rd.lift at h
  cases hu : utf8Decode bs with
  | none => rw [hu] at h; cases h
  | some t =>
    rw [hu] at h
    cases h
    unfold strLen
    rw [utf8_of_utf8Decode hu]

theorem string_needs {d : Bytes} {p q : Nat} {s : Str} (h : (readString d p).2 = .ok (s, q)) :
    (readString d p).1 = [strLen s] := by
  unfold readString at h ⊢
  simp only [liftM_eq] at h ⊢
  obtain ⟨n, p1, h1, h, e1⟩ := of_bind_ok h
  obtain ⟨p2, h2, h, e2⟩ := request_bind_ok h
  obtain ⟨bs, p3, h3, h, e3⟩ := of_bind_ok h
  rw [e1]
  refine e2.trans ?_
  rw [e3, decode_len (bs := bs) (d := d) h, readExact_length h3, Nat.one_mul]
  rfl

theorem items_needs {n : Nat} {d : Bytes} {p q : Nat} {ws : List Str} (h : (readVocabItems n d p).2 = .ok (ws, q)) :
    (readVocabItems n d p).1 = needsWords ws := by
  unfold readVocabItems at h ⊢
  obtain ⟨p1, _, h, e⟩ := request_bind_ok h
  refine e.trans ?_
  obtain ⟨h1, h2⟩ := replicateM_ok (R := fun s => [strLen s]) (fun _ _ _ _ h => string_needs h) h
  rw [h2, needsWords, h1]
  rw [flatMap_one]

theorem simple_needs {d : Bytes} {p q : Nat} {v : SimpleVocab} (h : (readSimple d p).2 = .ok (v, q)) :
    (readSimple d p).1 = needsWords v.words := by
  unfold readSimple at h ⊢
  simp only [liftM_eq] at h ⊢
  obtain ⟨_, _, _, h, e⟩ := of_bind_ok h
  refine e.trans ?_
  obtain ⟨_, _, _, h, e⟩ := of_bind_ok h
  refine e.trans ?_
  obtain ⟨n, _, _, h, e⟩ := of_bind_ok h
  refine e.trans ?_
  obtain ⟨ws, _, h1, h, e⟩ := bind_ok h
  refine e.trans ?_
  obtain ⟨h2, _⟩ := (Rd.lift_ok (d := d)).mp h
  obtain ⟨_, rfl⟩ := SimpleVocab.new_eq_ok.mp h2
  rw [items_needs h1]
  exact List.append_nil _

theorem bucketed_needs {I : Type} [BucketIndexer I] {id : ChunkId} {d : Bytes} {p q : Nat} {v : SubwordVocab I}
    (h : (readBucketed id d p).2 = .ok (v, q)) : (readBucketed id d p : List Nat × Res (SubwordVocab I × Nat)).1 = needsWords v.words := by
  unfold readBucketed at h ⊢
  simp only [liftM_eq] at h ⊢
  obtain ⟨_, _, _, h, e⟩ := of_bind_ok h
  refine e.trans ?_
  obtain ⟨_, _, _, h, e⟩ := of_bind_ok h
  refine e.trans ?_
  obtain ⟨n, _, _, h, e⟩ := of_bind_ok h
  refine e.trans ?_
  obtain ⟨m, _, _, h, e⟩ := of_bind_ok h
  refine e.trans ?_
  obtain ⟨M, _, _, h, e⟩ := of_bind_ok h
  refine e.trans ?_
  obtain ⟨b, _, _, h, e⟩ := of_bind_ok h
  refine e.trans ?_
  obtain ⟨ws, _, h1, h, e⟩ := bind_ok h
  refine e.trans ?_
  obtain ⟨ix, _, _, h, e⟩ := of_bind_ok h
  rw [e]
  obtain ⟨h2, _⟩ := (Rd.lift_ok (d := d)).mp h
  obtain ⟨_, _, rfl⟩ := SubwordVocab.newWithBoundaries_eq_ok.mp h2
  rw [items_needs h1]
  exact List.append_nil _

theorem ngram_needs {d : Bytes} {p q : Nat} {s : Str × Nat} (h : (readNgram d p).2 = .ok (s, q)) :
    (readNgram d p).1 = [strLen s.1] := by
  unfold readNgram at h ⊢
  simp only [liftM_eq] at h ⊢
  obtain ⟨n, p1, h1, h, e⟩ := of_bind_ok h
  refine e.trans ?_
  obtain ⟨p2, h2, h, e⟩ := request_bind_ok h
  refine e.trans ?_
  obtain ⟨bs, p3, h3, h, e⟩ := of_bind_ok h
  rw [e]
  obtain ⟨t, p4, h4, h, e⟩ := of_bind_ok h
  rw [e]
  obtain ⟨i, p5, h5, h, e⟩ := of_bind_ok h
  rw [e]
  cases h
  rw [decode_len (bs := bs) (d := d) h4, readExact_length h3, Nat.one_mul]
  rfl

theorem ngrams_needs {n : Nat} {d : Bytes} {p q : Nat} {gs : List (Str × Nat)} (h : (readNgrams n d p).2 = .ok (gs, q)) :
    (readNgrams n d p).1 = needsNgrams (gs.map (·.1)) := by
  unfold readNgrams at h ⊢
  obtain ⟨p1, _, h, e⟩ := request_bind_ok h
  refine e.trans ?_
  obtain ⟨h1, h2⟩ := replicateM_ok (R := fun s => [strLen s.1]) (fun _ _ _ _ h => ngram_needs h) h
  rw [h2, needsNgrams, List.length_map, h1, List.map_map, flatMap_one]
  rfl

theorem explicit_needs {d : Bytes} {p q : Nat} {v : ExplicitSubwordVocab} (h : (readExplicit d p).2 = .ok (v, q)) :
    (readExplicit d p).1 = needsWords v.words ++ needsNgrams v.indexer.ngrams := by
  unfold readExplicit at h ⊢
  simp only [liftM_eq] at h ⊢
  obtain ⟨_, _, _, h, e⟩ := of_bind_ok h
  refine e.trans ?_
  obtain ⟨_, _, _, h, e⟩ := of_bind_ok h
  refine e.trans ?_
  obtain ⟨n, _, _, h, e⟩ := of_bind_ok h
  refine e.trans ?_
  obtain ⟨k, _, _, h, e⟩ := of_bind_ok h
  refine e.trans ?_
  obtain ⟨m, _, _, h, e⟩ := of_bind_ok h
  refine e.trans ?_
  obtain ⟨M, _, _, h, e⟩ := of_bind_ok h
  refine e.trans ?_
  obtain ⟨ws, _, h1, h, e⟩ := bind_ok h
  refine e.trans ?_
  rw [items_needs h1]
  obtain ⟨gs, _, h2, h, e⟩ := bind_ok h
  rw [e, ngrams_needs h2]
  obtain ⟨⟨ix, o⟩, _, h3, h, e⟩ := of_bind_ok h
  rw [e]
  obtain ⟨h4, _⟩ := (Rd.lift_ok (d := d)).mp h
  obtain ⟨h5, _⟩ := (Rd.lift_ok (d := d)).mp h3
  obtain ⟨_, _, rfl⟩ := SubwordVocab.newWithBoundaries_eq_ok.mp h4
  have hk : ix.ngrams = gs.map (·.1) := by
    rw [newWithIndices_eq] at h5
    split at h5
    · rw [← (Prod.mk.inj (Res.ok.inj h5)).1]
    · cases h5
  dsimp only
  rw [hk]
  exact congrArg _ (List.append_nil _)

theorem floret_needs {d : Bytes} {p q : Nat} {v : FloretSubwordVocab} (h : (readFloret d p).2 = .ok (v, q)) :
    (readFloret d p).1 = [strLen v.bow, strLen v.eow] := by
  unfold readFloret at h ⊢
  simp only [liftM_eq] at h ⊢
  obtain ⟨_, _, _, h, e⟩ := of_bind_ok h
  refine e.trans ?_
  obtain ⟨_, _, _, h, e⟩ := of_bind_ok h
  refine e.trans ?_
  obtain ⟨m, _, _, h, e⟩ := of_bind_ok h
  refine e.trans ?_
  obtain ⟨M, _, _, h, e⟩ := of_bind_ok h
  refine e.trans ?_
  obtain ⟨nb, _, _, h, e⟩ := of_bind_ok h
  refine e.trans ?_
  obtain ⟨nh, _, _, h, e⟩ := of_bind_ok h
  refine e.trans ?_
  split at h
  · cases h
  · rename_i hc
    rw [if_neg hc]
    obtain ⟨seed, _, _, h, e⟩ := of_bind_ok h
    refine e.trans ?_
    obtain ⟨bow, _, h1, h, e⟩ := bind_ok h
    refine e.trans ?_
    rw [string_needs h1]
    obtain ⟨eow, _, h2, h, e⟩ := bind_ok h
    rw [e, string_needs h2]
    obtain ⟨ix, _, _, h, e⟩ := of_bind_ok h
    rw [e]
    obtain ⟨h4, _⟩ := (Rd.lift_ok (d := d)).mp h
    obtain ⟨_, _, rfl⟩ := SubwordVocab.newWithBoundaries_eq_ok.mp h4
    rfl

theorem wrap_ok {γ : Type} {m : MRd α} {f : α → γ} {d : Bytes} {p q : Nat} {b : γ}
    (h : ((m >>= fun a => (pure (f a) : MRd γ)) d p).2 = .ok (b, q)) :
    ∃ a, b = f a ∧ (m d p).2 = .ok (a, q) ∧ ((m >>= fun a => (pure (f a) : MRd γ)) d p).1 = (m d p).1 := by
  obtain ⟨a, p1, h1, h2, e⟩ := bind_ok h
  cases h2
  exact ⟨a, rfl, h1, e.trans (List.append_nil _)⟩

theorem vocab_needs {d : Bytes} {p q : Nat} {v : VocabWrap} (h : (readVocabWrap d p).2 = .ok (v, q)) :
    (readVocabWrap d p).1 = needsVocab v := by
  unfold readVocabWrap at h ⊢
  simp only [liftM_eq] at h ⊢
  obtain ⟨id, _, _, h, e⟩ := of_bind_ok h
  refine e.trans ?_
  cases id with
  | simpleVocab => obtain ⟨a, rfl, h1, e⟩ := wrap_ok h; rw [e]; exact simple_needs h1
  | fastTextSubwordVocab => obtain ⟨a, rfl, h1, e⟩ := wrap_ok h; rw [e]; exact bucketed_needs h1
  | bucketSubwordVocab => obtain ⟨a, rfl, h1, e⟩ := wrap_ok h; rw [e]; exact bucketed_needs h1
  | explicitSubwordVocab => obtain ⟨a, rfl, h1, e⟩ := wrap_ok h; rw [e]; exact explicit_needs h1
  | floretSubwordVocab => obtain ⟨a, rfl, h1, e⟩ := wrap_ok h; rw [e]; exact floret_needs h1
  | _ => cases h

/-! ## Storages -/

theorem f32s_length {n : Nat} {d : Bytes} {p q : Nat} {xs : List F32} (h : Rd.readF32s n d p = .ok (xs, q)) :
    xs.length = n := by
  obtain ⟨_, h, _⟩ := (Parses.readF32s n d p xs q).mp h
  exact h.1

theorem pq_new {F : Type} {pr : Option (Mat F)} {nc sd : Nat} {qs : List (Mat F)} {q : Pq F}
    (h : Pq.new pr nc sd qs = .ok q) : q = ⟨pr, nc, sd, qs⟩ := by
  unfold Pq.new at h
  obtain ⟨_, _, h⟩ := Res.bind_eq_ok.mp h
  obtain ⟨_, _, h⟩ := Res.bind_eq_ok.mp h
  exact (Res.ok.inj h).symm

theorem ndArray_needs {d : Bytes} {p q : Nat} {a : NdArray F32} (h : (readNdArray d p).2 = .ok (a, q)) :
    (readNdArray d p).1 = needsMatrix a.inner := by
  unfold readNdArray at h ⊢
  simp only [liftM_eq] at h ⊢
  obtain ⟨⟨r, c⟩, _, _, h, e⟩ := of_bind_ok h
  refine e.trans ?_
  obtain ⟨_, _, h, e⟩ := request_bind_ok h
  refine e.trans ?_
  obtain ⟨xs, _, _, h, e⟩ := of_bind_ok h
  rw [e]
  cases h
  have := Mat.ofFlat_nrows r c xs
  unfold Mat.nrows at this
  simp [needsMatrix, this]
  rfl

theorem projection_needs {flag n : Nat} {d : Bytes} {p q : Nat} {a : Option (Mat F32)}
    (h : (readProjection flag n d p).2 = .ok (a, q)) :
    (readProjection flag n d p).1 = if a.isSome then [4 * n ^ 2] else [] := by
  unfold readProjection at h ⊢
  simp only [liftM_eq] at h ⊢
  obtain ⟨_, _, _, h, e⟩ := of_bind_ok h
  refine e.trans ?_
  obtain ⟨_, _, _, h, e⟩ := of_bind_ok h
  refine e.trans ?_
  split at h
  · rename_i hc
    rw [if_pos hc]
    obtain ⟨_, _, h, e⟩ := request_bind_ok h
    refine e.trans ?_
    obtain ⟨xs, _, _, h, e⟩ := of_bind_ok h
    rw [e]
    cases h
    simp [Nat.pow_two]
    rfl
  · rename_i hc
    rw [if_neg hc]
    cases h
    rfl

theorem quantizers_needs {n c s : Nat} {d : Bytes} {p q : Nat} {a : List (Mat F32)}
    (h : (readQuantizers n c s d p).2 = .ok (a, q)) :
    a.length = n ∧ (readQuantizers n c s d p).1 = [4 * (n * c * s)] := by
  unfold readQuantizers at h ⊢
  simp only [liftM_eq] at h ⊢
  obtain ⟨_, _, h, e⟩ := request_bind_ok h
  obtain ⟨xs, _, _, h, e'⟩ := of_bind_ok h
  cases h
  refine ⟨by simp, e.trans ?_⟩
  rw [e']
  simp [Nat.mul_assoc]
  rfl

theorem pq_needs {d : Bytes} {p q : Nat} {a : PqRead} (h : (readPq d p).2 = .ok (a, q)) :
    (readPq d p).1 = needsQuantizer a.quantizer := by
  unfold readPq at h ⊢
  simp only [liftM_eq] at h ⊢
  obtain ⟨pr, _, _, h, e⟩ := of_bind_ok h
  refine e.trans ?_
  obtain ⟨rn, _, _, h, e⟩ := of_bind_ok h
  refine e.trans ?_
  obtain ⟨ql, _, _, h, e⟩ := of_bind_ok h
  refine e.trans ?_
  obtain ⟨rl, _, _, h, e⟩ := of_bind_ok h
  refine e.trans ?_
  obtain ⟨nc, _, _, h, e⟩ := of_bind_ok h
  refine e.trans ?_
  obtain ⟨ne, _, _, h, e⟩ := of_bind_ok h
  refine e.trans ?_
  obtain ⟨_, _, hz, h, e⟩ := of_bind_ok h
  refine e.trans ?_
  split at h
  · cases h
  · rename_i hc
    rw [if_neg hc]
    obtain ⟨_, _, _, h, e⟩ := of_bind_ok h
    refine e.trans ?_
    obtain ⟨_, _, _, h, e⟩ := of_bind_ok h
    refine e.trans ?_
    obtain ⟨proj, _, h1, h, e⟩ := bind_ok h
    refine e.trans ?_
    obtain ⟨qs, _, h2, h, e⟩ := bind_ok h
    rw [e]
    obtain ⟨q', _, h3, h, e⟩ := of_bind_ok h
    rw [e]
    cases h
    obtain ⟨h4, h5⟩ := quantizers_needs h2
    rw [projection_needs h1, h5]
    obtain ⟨h6, _⟩ := (Rd.lift_ok (d := d)).mp h3
    have h7 := pq_new h6
    subst h7
    unfold needsQuantizer
    dsimp only
    have : ql * (rl / ql) = rl := Nat.mul_div_cancel' (Nat.dvd_of_mod_eq_zero (by omega))
    rw [h4, this]
    show _ ++ ([_] ++ []) = _
    rw [List.append_nil]

theorem quantizedNorms_needs {b : Bool} {n : Nat} {d : Bytes} {p q : Nat} {a : Option (List F32)}
    (h : (readQuantizedNorms b n d p).2 = .ok (a, q)) : (readQuantizedNorms b n d p).1 = needsNorms a := by
  unfold readQuantizedNorms at h ⊢
  split at h
  · rename_i hc
    rw [if_pos hc]
    simp only [liftM_eq] at h ⊢
    obtain ⟨_, _, h, e⟩ := request_bind_ok h
    refine e.trans ?_
    obtain ⟨xs, _, h1, h, e⟩ := of_bind_ok h
    rw [e]
    cases h
    simp [needsNorms, f32s_length h1, pure_fst]
  · rename_i hc
    rw [if_neg hc]
    cases h
    rfl

theorem quantizedHead_needs {d : Bytes} {p q : Nat} {a : PqRead × Option (List F32)}
    (h : (readQuantizedHead d p).2 = .ok (a, q)) :
    (readQuantizedHead d p).1 = needsQuantizer a.1.quantizer ++ needsNorms a.2 := by
  unfold readQuantizedHead at h ⊢
  simp only [liftM_eq] at h ⊢
  obtain ⟨_, _, _, h, e⟩ := of_bind_ok h
  refine e.trans ?_
  obtain ⟨_, _, _, h, e⟩ := of_bind_ok h
  refine e.trans ?_
  obtain ⟨r, _, h1, h, e⟩ := bind_ok h
  refine e.trans ?_
  obtain ⟨ns, _, h2, h, e⟩ := bind_ok h
  rw [e]
  cases h
  rw [pq_needs h1, quantizedNorms_needs h2]
  exact congrArg _ (List.append_nil _)

theorem quantizedArray_needs {d : Bytes} {p q : Nat} {a : QuantizedArray F32} (h : (readQuantizedArray d p).2 = .ok (a, q)) :
    (readQuantizedArray d p).1 = needsStorage (.quantized a) := by
  unfold readQuantizedArray at h ⊢
  simp only [liftM_eq] at h ⊢
  obtain ⟨⟨r, ns⟩, _, h1, h, e⟩ := bind_ok h
  refine e.trans ?_
  rw [quantizedHead_needs h1]
  obtain ⟨_, _, h, e⟩ := request_bind_ok h
  have e' := e
  obtain ⟨cs, _, _, h, e⟩ := of_bind_ok h
  cases h
  refine congrArg _ (e'.trans ?_)
  rw [e]
  have := Mat.ofFlat_nrows r.nEmbeddings r.quantizer.quantizers.length cs
  unfold Mat.nrows at this
  simp [this, Pq.quantizedLen, pure_fst]

theorem mmapQuantizedArray_needs {d : Bytes} {p q : Nat} {a : MmapQuantizedArray}
    (h : (mmapQuantizedArray d p).2 = .ok (a, q)) : (mmapQuantizedArray d p).1 = needsStorage (.mmapQuantized a) := by
  unfold mmapQuantizedArray at h ⊢
  simp only [liftM_eq] at h ⊢
  obtain ⟨⟨r, ns⟩, _, h1, h, e⟩ := bind_ok h
  refine e.trans ?_
  rw [quantizedHead_needs h1]
  obtain ⟨_, _, _, h, e⟩ := of_bind_ok h
  rw [e]
  obtain ⟨_, _, _, h, e⟩ := of_bind_ok h
  rw [e]
  cases h
  exact List.append_nil _

theorem storage_needs {d : Bytes} {p q : Nat} {a : StorageWrap} (h : (readStorageWrap d p).2 = .ok (a, q)) :
    (readStorageWrap d p).1 = needsStorage a := by
  unfold readStorageWrap at h ⊢
  simp only [liftM_eq] at h ⊢
  obtain ⟨id, _, _, h, e⟩ := of_bind_ok h
  refine e.trans ?_
  cases id with
  | ndArray => obtain ⟨a, rfl, h1, e⟩ := wrap_ok h; rw [e]; exact ndArray_needs h1
  | quantizedArray => obtain ⟨a, rfl, h1, e⟩ := wrap_ok h; rw [e]; exact quantizedArray_needs h1
  | _ => cases h

theorem mmapStorage_needs {d : Bytes} {p q : Nat} {a : StorageWrap} (h : (mmapStorageWrap d p).2 = .ok (a, q)) :
    (mmapStorageWrap d p).1 = needsStorage a := by
  unfold mmapStorageWrap at h ⊢
  simp only [liftM_eq] at h ⊢
  obtain ⟨id, _, _, h, e⟩ := of_bind_ok h
  refine e.trans ?_
  cases id with
  | ndArray => obtain ⟨a, rfl, h1, e⟩ := wrap_ok h; rw [e]; rfl
  | quantizedArray => obtain ⟨a, rfl, h1, e⟩ := wrap_ok h; rw [e]; exact mmapQuantizedArray_needs h1
  | _ => cases h

theorem norms_needs {d : Bytes} {p q : Nat} {a : NdNorms F32} (h : (readNorms d p).2 = .ok (a, q)) :
    (readNorms d p).1 = needsNorms (some a.inner) := by
  unfold readNorms at h ⊢
  simp only [liftM_eq] at h ⊢
  obtain ⟨_, _, _, h, e⟩ := of_bind_ok h
  refine e.trans ?_
  obtain ⟨_, _, _, h, e⟩ := of_bind_ok h
  refine e.trans ?_
  obtain ⟨n, _, _, h, e⟩ := of_bind_ok h
  refine e.trans ?_
  obtain ⟨_, _, _, h, e⟩ := of_bind_ok h
  refine e.trans ?_
  obtain ⟨_, _, _, h, e⟩ := of_bind_ok h
  refine e.trans ?_
  obtain ⟨_, _, _, h, e⟩ := of_bind_ok h
  refine e.trans ?_
  obtain ⟨_, _, h, e⟩ := request_bind_ok h
  refine e.trans ?_
  obtain ⟨xs, _, h1, h, e⟩ := of_bind_ok h
  rw [e]
  cases h
  simp [needsNorms, f32s_length h1, pure_fst]

theorem header_needs {d : Bytes} {p q : Nat} {a : Header} (h : (readHeader d p).2 = .ok (a, q)) :
    (readHeader d p).1 = [4 * a.ids.length] := by
  unfold readHeader at h ⊢
  simp only [liftM_eq] at h ⊢
  obtain ⟨_, _, _, h, e⟩ := of_bind_ok h
  refine e.trans ?_
  split at h
  · cases h
  rename_i hc
  rw [if_neg hc]
  obtain ⟨_, _, _, h, e⟩ := of_bind_ok h
  refine e.trans ?_
  split at h
  · cases h
  rename_i hc
  rw [if_neg hc]
  obtain ⟨n, _, _, h, e⟩ := of_bind_ok h
  refine e.trans ?_
  obtain ⟨_, _, h, e⟩ := request_bind_ok h
  refine e.trans ?_
  obtain ⟨ids, _, h1, h, e⟩ := bind_ok h
  rw [e]
  cases h
  obtain ⟨h2, h3⟩ := replicateM_ok (R := fun _ => []) (fun _ _ _ _ _ => rfl) h1
  rw [h3]
  simp [h2, List.flatMap_def]
  rfl

/-! ## Other formats -/

section
variable {T F : Type}

theorem word2vec_needs [Scalar F] [FloatBits F] {lossy : Bool} {d : Bytes} {p q : Nat}
    {e : Embeddings T SimpleVocab (NdArray F) F} (h : (readWord2vecRaw lossy d p).2 = .ok (e, q)) :
    (readWord2vecRaw lossy d p : List Nat × Res (Embeddings T SimpleVocab (NdArray F) F × Nat)).1 =
      needsMatrix e.storage.inner ++ [24 * e.vocab.words.length] := by
  unfold readWord2vecRaw at h ⊢
  simp only [liftM_eq] at h ⊢
  obtain ⟨n, _, _, h, e⟩ := of_bind_ok h
  refine e.trans ?_
  obtain ⟨k, _, _, h, e⟩ := of_bind_ok h
  refine e.trans ?_
  obtain ⟨_, _, h, e⟩ := request_bind_ok h
  refine e.trans ?_
  obtain ⟨_, _, h, e⟩ := request_bind_ok h
  refine congrArg _ e |>.trans ?_
  obtain ⟨es, _, h1, h, e⟩ := bind_ok h
  rw [e]
  obtain ⟨v, _, h2, h, e⟩ := of_bind_ok h
  rw [e]
  obtain ⟨h3, h4⟩ := replicateM_ok (R := fun _ => []) (fun _ _ _ _ _ => rfl) h1
  rw [h4]
  obtain ⟨h5, _⟩ := (Rd.lift_ok (d := d)).mp h2
  obtain ⟨h6, _⟩ := (Rd.lift_ok (d := d)).mp h
  obtain ⟨_, rfl⟩ := SimpleVocab.new_eq_ok.mp h5
  obtain ⟨_, rfl⟩ := Embeddings.newWithMaybeNorms_eq_ok.mp h6
  simp [needsMatrix, h3, List.flatMap_def]
  rfl

theorem textDims_needs [Scalar F] [FloatText F] {lossy : Bool} {d : Bytes} {pos : Nat}
    {e : Embeddings T SimpleVocab (NdArray F) F} (h : Embeddings.readTextDimsRaw lossy d pos = .ok e) :
    (readTextDimsRaw lossy d pos : List Nat × Res (Embeddings T SimpleVocab (NdArray F) F)).1 =
      24 * e.vocab.words.length :: needsMatrix e.storage.inner := by
  unfold Embeddings.readTextDimsRaw at h
  obtain ⟨⟨n, p1⟩, h1, h⟩ := Res.bind_eq_ok.mp h
  obtain ⟨⟨k, p2⟩, h2, h⟩ := Res.bind_eq_ok.mp h
  dsimp only at h h2
  unfold Embeddings.readEmbeds at h
  obtain ⟨_, h3, h⟩ := Res.bind_eq_ok.mp h
  obtain ⟨rows, h4, h⟩ := Res.bind_eq_ok.mp h
  obtain ⟨shape, h5, h⟩ := Res.bind_eq_ok.mp h
  obtain ⟨m, h6, h⟩ := Res.bind_eq_ok.mp h
  obtain ⟨v, h7, h⟩ := Res.bind_eq_ok.mp h
  obtain ⟨_, rfl⟩ := SimpleVocab.new_eq_ok.mp h7
  obtain ⟨_, rfl⟩ := Embeddings.newWithMaybeNorms_eq_ok.mp h
  have hs : shape = (n, k) ∧ rows.length = n := by
    unfold Embeddings.tableShape at h5
    dsimp only at h5
    split at h5
    · cases h5
    · split at h5
      · cases h5
      · split at h5
        · cases h5
        · cases h5; exact ⟨rfl, by omega⟩
  obtain ⟨rfl, hr⟩ := hs
  have hm : m = Mat.ofFlat n k (rows.map (·.2)).flatten := by
    unfold Embeddings.fromShapeVec at h6
    split at h6
    · exact (Res.ok.inj h6).symm
    · cases h6
  have hn := Mat.ofFlat_nrows n k (rows.map (·.2)).flatten
  unfold Mat.nrows at hn
  unfold readTextDimsRaw
  rw [andThen_ok (a := (n, p1)) h1]
  dsimp only
  rw [andThen_ok (a := (k, p2)) h2]
  dsimp only
  unfold readEmbeds allocTable
  dsimp only
  unfold Embeddings.allocTable at h3
  dsimp only at h3
  obtain ⟨u, h10, h11⟩ := Res.bind_eq_ok.mp h3
  rw [h10, h11]
  simp [andThen, requested, needsMatrix, hm, hn, hr]

theorem floretText_needs [Scalar F] [FloatText F] {d : Bytes} {pos : Nat}
    {e : Embeddings T FloretSubwordVocab (NdArray F) F} (h : Embeddings.readFloret d pos = .ok e) :
    (readFloretText d pos : List Nat × Res (Embeddings T FloretSubwordVocab (NdArray F) F)).1 =
      needsMatrix e.storage.inner := by
  unfold Embeddings.readFloret at h
  obtain ⟨⟨hd', p⟩, h1, h⟩ := Res.bind_eq_ok.mp h
  obtain ⟨_, h2, h⟩ := Res.bind_eq_ok.mp h
  obtain ⟨_, h3, h⟩ := Res.bind_eq_ok.mp h
  obtain ⟨rows, h5, h⟩ := Res.bind_eq_ok.mp h
  obtain ⟨m, h6, h⟩ := Res.bind_eq_ok.mp h
  obtain ⟨ix, _, h⟩ := Res.bind_eq_ok.mp h
  obtain ⟨v, _, h⟩ := Res.bind_eq_ok.mp h
  obtain ⟨_, rfl⟩ := Embeddings.newWithMaybeNorms_eq_ok.mp h
  dsimp only at h2 h3 h6 ⊢
  have hm : m = Mat.ofFlat hd'.nBuckets hd'.embedLen rows.flatten := by
    unfold Embeddings.fromShapeVec at h6
    split at h6
    · exact (Res.ok.inj h6).symm
    · cases h6
  have hn := Mat.ofFlat_nrows hd'.nBuckets hd'.embedLen rows.flatten
  unfold Mat.nrows at hn
  unfold readFloretText
  rw [andThen_ok (a := (hd', p)) h1]
  dsimp only
  rw [andThen_ok (a := ()) h2]
  dsimp only
  rw [h3]
  simp [andThen, requested, needsMatrix, hm, hn]

theorem fastText_needs [Scalar F] [ScalarNat F] [FloatBits F] [ConfigToml T] {lossy : Bool} {d : Bytes} {p q : Nat}
    {e : Embeddings T FastTextSubwordVocab (NdArray F) F} (h : (readFastText lossy d p).2 = .ok (e, q)) :
    (readFastText lossy d p : List Nat × Res (Embeddings T FastTextSubwordVocab (NdArray F) F × Nat)).1 =
      24 * e.vocab.words.length :: needsMatrix e.storage.inner := by
  unfold readFastText at h ⊢
  simp only [liftM_eq] at h ⊢
  obtain ⟨_, _, _, h, e⟩ := of_bind_ok h
  refine e.trans ?_
  obtain ⟨c, _, _, h, e⟩ := of_bind_ok h
  refine e.trans ?_
  obtain ⟨v, _, hv, h, e⟩ := bind_ok h
  refine e.trans ?_
  obtain ⟨_, _, _, h, e⟩ := of_bind_ok h
  rw [e]
  obtain ⟨s, _, hs, h, e⟩ := bind_ok h
  rw [e]
  obtain ⟨hf, _⟩ := (Rd.lift_ok (d := d)).mp h
  -- the vocabulary
  unfold readFtVocab at hv ⊢
  simp only [liftM_eq] at hv ⊢
  obtain ⟨n, _, _, hv, e⟩ := of_bind_ok hv
  rw [e]
  obtain ⟨_, _, hv, e⟩ := request_bind_ok hv
  have e' := e
  obtain ⟨ws, _, h1, hv, e⟩ := bind_ok hv
  have e'' := e
  obtain ⟨ix, _, h2, hv, e3⟩ := of_bind_ok hv
  obtain ⟨hix, _⟩ := (Rd.lift_ok (d := d)).mp h2
  obtain ⟨hv, _⟩ := (Rd.lift_ok (d := d)).mp hv
  obtain ⟨h3, h4⟩ := replicateM_ok (R := fun _ => []) (fun _ _ _ _ _ => rfl) h1
  -- the matrix
  unfold readFtMatrix at hs ⊢
  simp only [liftM_eq] at hs ⊢
  obtain ⟨r, _, _, hs, f⟩ := of_bind_ok hs
  rw [f]
  obtain ⟨k, _, _, hs, f⟩ := of_bind_ok hs
  rw [f]
  obtain ⟨_, _, hs, f⟩ := request_bind_ok hs
  have f' := f
  obtain ⟨xs, _, _, hs, f⟩ := of_bind_ok hs
  cases hs
  obtain ⟨_, hr, md, rows', norms, _, rfl, hrows⟩ := (finishFastText_eq_ok hix hv).mp hf
  have hw : v.words = ws := by
    obtain ⟨_, _, rfl⟩ := SubwordVocab.newWithBoundaries_eq_ok.mp hv
    rfl
  have hl : rows'.length = r := by
    have := hrows.1
    have h5 := chunks_length r k (xs.map FloatBits.ofBits : List F)
    omega
  refine (congr (congrArg HAppend.hAppend (e'.trans (congrArg _ e''))) (congr (congrArg HAppend.hAppend f') rfl)).trans ?_
  rw [h4, e3, f]
  simp [needsMatrix, hl, hw, h3, List.flatMap_def, pure_fst, of]

end

/-! ## The claims -/

theorem Exactly.of_erases {R : α → List Nat} {m : MRd α} {m' : Rd α} (he : Erases m m')
    (h : ∀ {d : Bytes} {p q : Nat} {a : α}, (m d p).2 = .ok (a, q) → (m d p).1 = R a) : Exactly R m m' :=
  ⟨he, fun d p _ _ hr => h ((he d p).trans hr)⟩

/-- **C106** (chunks). -/
theorem c106_chunks :
    Exactly (fun h => [4 * h.ids.length]) readHeader Header.read ∧
    Exactly (fun v => needsWords v.words) readSimple SimpleVocab.read ∧
    Exactly (fun v => needsWords v.words) (readBucketed .bucketSubwordVocab : MRd BucketSubwordVocab)
      (FF.readBucketed .bucketSubwordVocab) ∧
    Exactly (fun v => needsWords v.words) (readBucketed .fastTextSubwordVocab : MRd FastTextSubwordVocab)
      (FF.readBucketed .fastTextSubwordVocab) ∧
    Exactly (fun v => needsWords v.words ++ needsNgrams v.indexer.ngrams) readExplicit FF.readExplicit ∧
    Exactly (fun v => [strLen v.bow, strLen v.eow]) readFloret FF.readFloret ∧
    Exactly needsVocab readVocabWrap FF.readVocabWrap ∧
    Exactly (fun a => needsMatrix a.inner) readNdArray FF.readNdArray ∧
    Exactly (fun a => needsStorage (.quantized a)) readQuantizedArray FF.readQuantizedArray ∧
    Exactly (fun a => needsStorage (.mmapQuantized a)) mmapQuantizedArray FF.mmapQuantizedArray ∧
    Exactly needsStorage readStorageWrap FF.readStorageWrap ∧
    Exactly needsStorage mmapStorageWrap FF.mmapStorageWrap ∧
    Exactly (fun a => needsNorms (some a.inner)) readNorms FF.readNorms :=
  ⟨.of_erases erases_header header_needs, .of_erases erases_simple simple_needs,
   .of_erases (erases_bucketed _) bucketed_needs, .of_erases (erases_bucketed _) bucketed_needs,
   .of_erases erases_explicit explicit_needs, .of_erases erases_floret floret_needs,
   .of_erases erases_vocabWrap vocab_needs, .of_erases erases_ndArray ndArray_needs,
   .of_erases erases_quantizedArray quantizedArray_needs, .of_erases erases_mmapQuantizedArray mmapQuantizedArray_needs,
   .of_erases erases_storageWrap storage_needs, .of_erases erases_mmapStorageWrap mmapStorage_needs,
   .of_erases erases_norms norms_needs⟩

/-- **C106** (other formats). The strings of the words are not requested in advance in these formats. -/
theorem c106_formats {T F : Type} [Scalar F] [ScalarNat F] [FloatBits F] [ConfigToml T] [FloatText F] (lossy : Bool) :
    Exactly (fun e => needsMatrix e.storage.inner ++ [24 * e.vocab.words.length])
      (readWord2vecRaw lossy : MRd (Embeddings T SimpleVocab (NdArray F) F)) (Embeddings.readWord2vecRaw lossy) ∧
    Exactly (fun e => 24 * e.vocab.words.length :: needsMatrix e.storage.inner)
      (readFastText lossy : MRd (Embeddings T FastTextSubwordVocab (NdArray F) F)) (Embeddings.readFastText lossy) ∧
    (∀ d p (e : Embeddings T SimpleVocab (NdArray F) F), Embeddings.readTextDimsRaw lossy d p = .ok e →
      (readTextDimsRaw lossy d p : List Nat × Res (Embeddings T SimpleVocab (NdArray F) F)).1 =
        24 * e.vocab.words.length :: needsMatrix e.storage.inner) ∧
    (∀ d p (e : Embeddings T FloretSubwordVocab (NdArray F) F), Embeddings.readFloret d p = .ok e →
      (readFloretText d p : List Nat × Res (Embeddings T FloretSubwordVocab (NdArray F) F)).1 =
        needsMatrix e.storage.inner) :=
  ⟨.of_erases (erases_word2vec lossy) word2vec_needs, .of_erases (erases_fastText lossy) fastText_needs,
    fun _ _ _ h => textDims_needs h, fun _ _ _ h => floretText_needs h⟩

theorem metadata_needs {T : Type} [Toml T] {d : Bytes} {p q : Nat} {a : Metadata T}
    (h : (readMetadata d p : List Nat × Res (Metadata T × Nat)).2 = .ok (a, q)) :
    ∃ text, Toml.parse text = some a.inner ∧
      (readMetadata d p : List Nat × Res (Metadata T × Nat)).1 = [strLen text] := by
  unfold readMetadata at h ⊢
  simp only [liftM_eq] at h ⊢
  obtain ⟨_, _, _, h, e1⟩ := of_bind_ok h
  obtain ⟨n, _, _, h, e2⟩ := of_bind_ok h
  obtain ⟨_, _, h, e3⟩ := request_bind_ok h
  obtain ⟨bs, _, h1, h, e4⟩ := of_bind_ok h
  obtain ⟨s, _, h2, h, e5⟩ := of_bind_ok h
  obtain ⟨t, _, h3, h, e6⟩ := of_bind_ok h
  cases h
  obtain ⟨h4, _⟩ := (Rd.lift_ok (d := d)).mp h3
  refine ⟨s, ?_, e1.trans (e2.trans (e3.trans ?_))⟩
  · cases hp : (Toml.parse s : Option T) with
    | none => rw [hp] at h4; cases h4
    | some x => rw [hp] at h4; rw [Res.ok.inj h4]
  · rw [e4, e5, e6, decode_len (bs := bs) (d := d) h2, readExact_length h1, Nat.one_mul]
    rfl

/-- Metadata, if there is any: the text that was parsed. -/
def NeedsMetadata {T : Type} [Toml T] : Option (Metadata T) → List Nat → Prop
  | some m, rs => ∃ text, Toml.parse text = some m.inner ∧ rs = [strLen text]
  | none, rs => rs = []

theorem optMetadata_needs {T : Type} [Toml T] {d : Bytes} {p q : Nat} {a : Option (Metadata T)}
    (h : (readOptMetadata d p : List Nat × Res (Option (Metadata T) × Nat)).2 = .ok (a, q)) :
    ∃ hd p', Header.read d p = .ok (hd, p') ∧ ∃ rs, NeedsMetadata a rs ∧
      (readOptMetadata d p : List Nat × Res (Option (Metadata T) × Nat)).1 = 4 * hd.ids.length :: rs := by
  unfold readOptMetadata at h ⊢
  simp only [liftM_eq] at h ⊢
  obtain ⟨hd, p', h1, h, e⟩ := bind_ok h
  refine ⟨hd, p', (erases_header d p).symm.trans h1, ?_⟩
  rw [header_needs h1] at e
  obtain ⟨ids⟩ := hd
  cases ids with
  | nil => cases h
  | cons i rest =>
    dsimp only at h e
    split at h
    · rename_i hc
      rw [if_pos hc] at e
      obtain ⟨m, rfl, h2, e2⟩ := wrap_ok h
      obtain ⟨t, h3, h4⟩ := metadata_needs h2
      refine ⟨[strLen t], ⟨t, h3, rfl⟩, e.trans ?_⟩
      rw [e2, h4]
      rfl
    · rename_i hc
      rw [if_neg hc] at e
      cases h
      exact ⟨[], rfl, e⟩

/-- **C106** (files). The requests for an accepted file with norms: the header, the text of the metadata if there is any, the
vocabulary, the storage, the norms. Without norms, the requests of the attempt to read them come last. -/
theorem c106_files {T : Type} [Toml T] (d : Bytes) (pos : Nat) (m : MRd StorageWrap) (m' : Rd StorageWrap)
    (hm : (m, m') = (readStorageWrap, FF.readStorageWrap) ∨ (m, m') = (mmapStorageWrap, FF.mmapStorageWrap))
    (e : Embeddings T VocabWrap StorageWrap F32) (h : Embeddings.readWith m' d pos = .ok e) :
    ∃ hd p rs last, Header.read d pos = .ok (hd, p) ∧ NeedsMetadata e.metadata rs ∧
      (readEmbeddings (T := T) readVocabWrap m d pos).1 =
        4 * hd.ids.length :: (rs ++ needsVocab e.vocab ++ needsStorage e.storage ++ last) ∧
      (e.norms ≠ none → last = needsNorms (e.norms.map (·.inner))) := by
  have hf : (∀ {d : Bytes} {p q : Nat} {a : StorageWrap}, (m d p).2 = .ok (a, q) → (m d p).1 = needsStorage a) ∧
      Erases m m' := by
    rcases hm with h | h <;> cases h
    · exact ⟨storage_needs, erases_storageWrap⟩
    · exact ⟨mmapStorage_needs, erases_mmapStorageWrap⟩
  have he : (readEmbeddings (T := T) readVocabWrap m d pos).2 = .ok e :=
    (erases_embeddings erases_vocabWrap hf.2 d pos).trans h
  unfold readEmbeddings at he ⊢
  rw [andThen_snd] at he
  obtain ⟨⟨⟨md, v⟩, p1⟩, h1, he⟩ := Res.bind_eq_ok.mp he
  rw [andThen_ok h1]
  dsimp only at he ⊢
  rw [andThen_snd] at he
  obtain ⟨⟨s, p2⟩, h2, he⟩ := Res.bind_eq_ok.mp he
  rw [andThen_ok h2]
  dsimp only at he ⊢
  rw [andThen_snd] at he
  obtain ⟨n, h3, he⟩ := Res.bind_eq_ok.mp he
  rw [andThen_ok h3]
  dsimp only at he h3 ⊢
  cases he
  dsimp only
  unfold readHead at h1 ⊢
  obtain ⟨md', p3, g1, h1, e1⟩ := bind_ok h1
  obtain ⟨v', p4, g2, h1, e2⟩ := bind_ok h1
  cases h1
  obtain ⟨hd, p5, g3, rs, g4, g5⟩ := optMetadata_needs g1
  refine ⟨hd, p5, rs, (readNorms d p2).1, g3, g4, ?_, ?_⟩
  · rw [e1, e2, g5, vocab_needs g2, hf.1 h2, pure_fst]
    simp
  · intro hne
    cases h4 : (readNorms d p2).2 with
    | ok r =>
      rw [h4] at h3
      unfold Embeddings.orNone at h3
      cases h3
      exact norms_needs (q := r.2) h4
    | err x =>
      rw [h4] at h3
      unfold Embeddings.orNone at h3
      cases h3
      exact absurd rfl hne
    | panic =>
      rw [h4] at h3
      unfold Embeddings.orNone at h3
      cases h3

/-- An accepted file (`c106_files`): header with two identifiers, two words of one and two bytes, a matrix with two
components. -/
example : (@readEmbeddings _ _ _ exampleToml readVocabWrap readStorageWrap exampleFile 0).1 = [8, 48, 1, 2, 8] ∧
    ∃ e : Embeddings Str VocabWrap StorageWrap F32,
      @Embeddings.readWith _ _ _ exampleToml _ FF.readStorageWrap exampleFile 0 = .ok e := by
  have h : (@Embeddings.readWith _ VocabWrap StorageWrap exampleToml _ FF.readStorageWrap exampleFile 0).map
      (fun e => e.norms.isNone) = .ok true := by decide +kernel
  obtain ⟨e, he, _⟩ := Res.map_eq_ok.mp h
  exact ⟨by decide +kernel, e, he⟩

/-- Accepted chunks and formats. -/
example : (SimpleVocab.read (leBytes 4 1 ++ leBytes 8 0 ++ leBytes 8 1 ++ leBytes 4 1 ++ [97]) 0).map (fun r => (r.1.words, r.2)) =
      .ok ([['a']], 25) ∧
    (readSimple (leBytes 4 1 ++ leBytes 8 0 ++ leBytes 8 1 ++ leBytes 4 1 ++ [97]) 0).1 = needsWords [['a']] ∧
    (@readTextDimsRaw Unit F32 exampleFloatText false ("1 2\na 1 2\n".toList.map fun c => UInt8.ofNat c.toNat) 0).1 = [24, 8] := by
  refine ⟨?_, ?_, ?_⟩ <;> decide +kernel

end FF.MRd
