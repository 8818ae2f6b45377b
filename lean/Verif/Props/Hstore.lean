import Verif.Proofs.Hstore
/-!
# C22: hstore and jsonb
-/
namespace PG.Props.Hstore
open PG PG.Spec PG.Spec.Format PG.Spec.Hstore PG.Hstore PG.TypesLib PG.Element3

variable {τ : Type} [DecidableEq τ] (encode : τ → Except Err Bytes) (decode : Bytes → Except Err τ)

theorem length_dictSet (d : List (τ × Option τ)) (k : τ) (v : Option τ) :
    (dictSet d k v).length = d.length + (if k ∈ d.map (·.1) then 0 else 1) := by
  induction d with
  | nil => rfl
  | cons p d ih =>
    obtain ⟨k', v'⟩ := p
    rw [dictSet]
    by_cases h : k' = k
    · rw [if_pos h, if_pos (by rw [h]; exact List.mem_cons_self ..)]; rfl
    · rw [if_neg h, List.length_cons, ih, List.length_cons]
      have : (k ∈ List.map (·.1) ((k', v') :: d)) ↔ k ∈ d.map (·.1) := by
        rw [List.map_cons, List.mem_cons]
        exact ⟨fun h' => h'.resolve_left (fun e => h e.symm), Or.inr⟩
      simp only [this]
      omega

theorem keys_dictSet (d : List (τ × Option τ)) (k k' : τ) (v : Option τ) :
    k' ∈ (dictSet d k v).map (·.1) ↔ k' = k ∨ k' ∈ d.map (·.1) := by
  induction d with
  | nil => simp [dictSet]
  | cons p d ih =>
    obtain ⟨a, b⟩ := p
    rw [dictSet]
    by_cases h : a = k
    · subst h; rw [if_pos rfl]; simp
    · rw [if_neg h, List.map_cons, List.mem_cons, ih, List.map_cons, List.mem_cons]
      constructor
      · rintro (h | h | h)
        · exact Or.inr (Or.inl h)
        · exact Or.inl h
        · exact Or.inr (Or.inr h)
      · rintro (h | h | h)
        · exact Or.inr (Or.inl h)
        · exact Or.inl h
        · exact Or.inr (Or.inr h)

theorem foldl_length (qs d : List (τ × Option τ)) :
    (qs.foldl (fun d p => dictSet d p.1 p.2) d).length ≤ d.length + qs.length ∧
    ((qs.foldl (fun d p => dictSet d p.1 p.2) d).length = d.length + qs.length →
      (qs.map (·.1)).Nodup ∧ ∀ k ∈ qs.map (·.1), k ∉ d.map (·.1)) := by
  induction qs generalizing d with
  | nil => exact ⟨Nat.le_refl _, fun _ => ⟨List.nodup_nil, fun _ h => by cases h⟩⟩
  | cons q qs ih =>
    obtain ⟨h1, h2⟩ := ih (dictSet d q.1 q.2)
    have hl := length_dictSet d q.1 q.2
    rw [List.foldl_cons, List.length_cons]
    constructor
    · split at hl <;> omega
    · intro he
      by_cases hm : q.1 ∈ d.map (·.1)
      · rw [if_pos hm] at hl; omega
      · rw [if_neg hm] at hl
        obtain ⟨h3, h4⟩ := h2 (by omega)
        rw [List.map_cons, List.nodup_cons]
        refine ⟨⟨fun hq => h4 _ hq ((keys_dictSet ..).2 (Or.inl rfl)), h3⟩, ?_⟩
        intro k hk
        rcases List.mem_cons.1 hk with rfl | hk
        · exact hm
        · exact fun hd => h4 _ hk ((keys_dictSet ..).2 (Or.inr hd))

/-- C22: a mapping is sent in the documented format and comes back as itself, if the connection's codec can encode it, decodes
what it encodes, and the sizes fit their fields. -/
theorem C22_round_trip (x : List (τ × Option τ)) (hx : (x.map (·.1)).Nodup) (hlen : x.length < 2 ^ 32)
    (hcodec : ∀ a b, encode a = .ok b → decode b = .ok a)
    (ps : List (Bytes × Option Bytes)) (hp : Pairwise encode x ps) (hs : SizesOk ps) :
    packHstore encode x = .ok (encs (hstoreFields x.length ps)) ∧
    unpackHstore decode (encs (hstoreFields x.length ps)) = .ok x := by
  have hl : x.length < 4294967296 := hlen
  exact ⟨packHstore_spec encode x ps hp hs (nat_lt_inU hl),
    (unpackHstore_iff decode _ x).2 ⟨ps, x, rfl, hl, hs, pairwise_inv hcodec hp, (dictOf_nodup x hx).symm⟩⟩

/-- C22: which byte strings are accepted as hstore, and as which mapping: pairs in the documented format that the codec decodes;
a key has the value of its last pair; the number in front is that of the different keys. -/
theorem C22_unpack_exact (b : Bytes) (r : List (τ × Option τ)) (h : unpackHstore decode b = .ok r) :
    ∃ ps qs, b = encs (hstoreFields r.length ps) ∧ SizesOk ps ∧ Pairwise decode ps qs ∧ ∀ k, dictGet r k = lastValue k qs := by
  obtain ⟨ps, qs, h1, _, h2, h3, h4⟩ := (unpackHstore_iff decode b r).1 h
  exact ⟨ps, qs, h1, h2, h3, fun k => by rw [h4]; exact dictGet_dictOf qs k⟩

/-- C22: data whose number is that of its pairs is refused if a key is repeated. -/
theorem C22_duplicates_refused (ps : List (Bytes × Option Bytes)) (qs : List (τ × Option τ)) (hs : SizesOk ps)
    (hp : Pairwise decode ps qs) (hd : ¬ (qs.map (·.1)).Nodup) (hl : ps.length < 2 ^ 32) :
    unpackHstore decode (encs (hstoreFields ps.length ps)) = .error .valueError := by
  have hl' : ps.length < 4294967296 := hl
  have hdrop : (encs (hstoreFields ps.length ps)).drop 4 = encs ((flat ps).flatMap value) := by
    rw [hstoreFields, encs_cons, enc_int32, List.drop_left' (length_digits ..), encs_flat]
  have hs' : splitSizedData ((encs (hstoreFields ps.length ps)).drop 4) = (flat ps, none) :=
    (splitSized_iff _ _ _ (Nat.lt_succ_self _)).2 ⟨hdrop, (itemsOk_flat ps).2 hs⟩
  have hc : comprehension decode (Itertools.chunk (flat ps) 2) [] = .ok (dictOf qs) :=
    (comprehension_iff decode _ _ (Nat.lt_succ_self _) _ _).2 ⟨ps, qs, rfl, hp, rfl⟩
  have hu : unpackFromU 4 (encs (hstoreFields ps.length ps)) = .ok (ps.length : Int) := by
    rw [hstoreFields, encs_cons, enc_int32]; exact unpackFromU4 hl' _
  unfold unpackHstore
  simp only [hu, hs', consume, hc, bind_ok, pure_ok]
  apply if_pos
  intro he
  apply hd
  refine ((foldl_length qs []).2 ?_).1
  rw [pairwise_length hp] at he
  have : (dictOf qs).length = qs.length := by omega
  simpa [dictOf] using this

/-- C22: for given pairs at most one number in front is accepted. -/
theorem C22_number_determined (n m : Int) (ps : List (Bytes × Option Bytes)) (r s : List (τ × Option τ))
    (hn : 0 ≤ n ∧ n < 2 ^ 32) (hm : 0 ≤ m ∧ m < 2 ^ 32)
    (h1 : unpackHstore decode (encs (hstoreFields n ps)) = .ok r)
    (h2 : unpackHstore decode (encs (hstoreFields m ps)) = .ok s) : n = m ∧ r = s := by
  have key : ∀ n : Int, 0 ≤ n ∧ n < 2 ^ 32 → ∀ r : List (τ × Option τ), unpackHstore decode (encs (hstoreFields n ps)) = .ok r →
      n = r.length ∧ consume decode (splitSizedData (encs (pairFields ps))).1 (splitSizedData (encs (pairFields ps))).2 = .ok r := by
    intro n hn r h
    unfold unpackHstore at h
    have hu : unpackFromU 4 (encs (hstoreFields n ps)) = .ok n := by
      rw [hstoreFields, encs_cons, enc_int32]; exact unpackFromU_digits ((inU4_iff n).2 hn) _
    have hdrop : (encs (hstoreFields n ps)).drop 4 = encs (pairFields ps) := by
      rw [hstoreFields, encs_cons, enc_int32, List.drop_left' (length_digits ..)]
    rw [hu, bind_ok, hdrop] at h
    obtain ⟨r', h', h⟩ := bind_eq_ok h
    split at h
    · cases h
    · rename_i hne
      cases h
      exact ⟨by omega, h'⟩
  obtain ⟨a1, a2⟩ := key n hn r h1
  obtain ⟨b1, b2⟩ := key m hm s h2
  rw [a2] at b2
  have := Except.ok.inj b2
  subst this
  exact ⟨a1.trans b1.symm, rfl⟩

/-- A codec for the examples: the identity. -/
def idCodec : Bytes → Except Err Bytes := .ok

/-- C22, a finding: a repeated key is accepted if the number is that of the different keys: here "a" twice, number 1. -/
theorem C22_duplicate_accepted :
    unpackHstore idCodec (encs (hstoreFields 1 [([97], some [49]), ([97], some [50])])) = .ok [([97], some [50])] := by decide +kernel

/-- Non-vacuity: a mapping with an empty key, a NULL and a value. -/
example : packHstore idCodec [([], none), ([97], some [49, 50])] = .ok [0, 0, 0, 2, 0, 0, 0, 0, 255, 255, 255, 255, 0, 0, 0, 1, 97, 0, 0, 0, 2, 49, 50] ∧
    unpackHstore idCodec [0, 0, 0, 2, 0, 0, 0, 0, 255, 255, 255, 255, 0, 0, 0, 1, 97, 0, 0, 0, 2, 49, 50] = .ok [([], none), ([97], some [49, 50])] ∧
    Pairwise idCodec [([], none), ([97], some [49, 50])] [([], none), ([97], some [49, 50])] ∧
    unpackHstore idCodec [0, 0, 0, 2, 0, 0, 0, 0, 255, 255, 255, 255, 0, 0, 0, 1, 97, 0, 0, 0, 2, 49] = .error .valueError ∧
    unpackHstore idCodec [0, 0, 0, 1, 0, 0, 0, 1, 97] = .error .indexError := by
  refine ⟨by decide +kernel, by decide +kernel, ⟨rfl, rfl, rfl, trivial⟩, by decide +kernel, by decide +kernel⟩

omit [DecidableEq τ] in
/-- C22: jsonb: the version byte 1 and the text; another version or no data at all is refused. -/
theorem C22_jsonb (x : τ) (t : Bytes) (he : encode x = .ok t) (hd : decode t = .ok x) :
    jsonbPack encode x = .ok (1 :: t) ∧ jsonbUnpack decode (1 :: t) = .ok x ∧
    (∀ b y, jsonbUnpack decode b = .ok y → ∃ r, b = 1 :: r ∧ decode r = .ok y) := by
  refine ⟨by simp only [jsonbPack, he, bind_ok, pure_ok], hd, ?_⟩
  intro b y h
  match b, h with
  | [], h => cases h
  | v :: r, h =>
    unfold jsonbUnpack at h
    dsimp only at h
    split at h
    · cases h
    · rename_i hv
      exact ⟨r, by rw [Decidable.not_not.1 hv], h⟩

end PG.Props.Hstore
