import Verif.Spec.ClientParams
import Verif.Proofs.ConfigFile2
/-!
# Lemmas for `Props/ClientParams`
-/
namespace PG.Props.ClientParams
open PG PG.ClientParams PG.Spec.ClientParams
open PG.Proofs.ConfigFile (mem_keys_set nodup_set)

/-- What a denormalized parameter is for. -/
def keyOf : Flat → Key
  | .top k _ => .param k
  | .sub _ sk _ => .setting sk

def valOf : Flat → Arg
  | .top _ v => v
  | .sub _ _ v => .val v

def gives (key : Key) (f : Flat) : Option Arg := if keyOf f = key then some (valOf f) else none

theorem gives_top (k k' : Str) (v : Arg) : gives (.param k') (.top k v) = if k = k' then some v else none := by
  unfold gives keyOf valOf
  by_cases e : k = k'
  · rw [if_pos e]; exact if_pos (by rw [e])
  · rw [if_neg e]; exact if_neg (by simpa using e)

theorem gives_sub (k sk sk' : Str) (v : Val) : gives (.setting sk') (.sub k sk v) = if sk = sk' then some (.val v) else none := by
  unfold gives keyOf valOf
  by_cases e : sk = sk'
  · rw [if_pos e]; exact if_pos (by rw [e])
  · rw [if_neg e]; exact if_neg (by simpa using e)

theorem gives_top_setting (k sk : Str) (v : Arg) : gives (.setting sk) (.top k v) = none := rfl

theorem gives_sub_param (k sk k' : Str) (v : Val) : gives (.param k') (.sub k sk v) = none := rfl

/-- What a sequence says: the last one counts. -/
def says (l : List Flat) (key : Key) : Option Arg := l.reverse.findSome? (gives key)

/-- Subdictionaries are of settings only, and the settings are given one by one. -/
def Fine : Flat → Prop
  | .top k _ => k ≠ "settings".toList
  | .sub k _ _ => k = "settings".toList

theorem says_nil (key : Key) : says [] key = none := rfl

theorem says_append (a b : List Flat) (key : Key) : says (a ++ b) key = (says b key).or (says a key) := by
  unfold says
  rw [List.reverse_append, List.findSome?_append]

theorem says_one (f : Flat) (key : Key) : says [f] key = gives key f := by
  simp [says]

theorem says_cons (f : Flat) (l : List Flat) (key : Key) : says (f :: l) key = (says l key).or (gives key f) := by
  rw [show f :: l = [f] ++ l from rfl, says_append, says_one]

theorem says_none {l : List Flat} {key : Key} (h : ∀ f ∈ l, keyOf f ≠ key) : says l key = none := by
  unfold says
  rw [List.findSome?_eq_none_iff]
  intro f hf
  unfold gives
  rw [if_neg (h f (by simpa using hf))]

/-- A dictionary of parameters whose settings, if given, are a dictionary themselves. -/
structure Good (p : Params) : Prop where
  keys : IsDict p
  settings : ∀ v, PyDict.get "settings".toList p = some v → ∃ d, v = .dict d ∧ IsDict d

theorem Good.ok {p : Params} (h : Good p) : Ok p := ⟨h.keys, fun d hd => by
  obtain ⟨d', e, h'⟩ := h.settings _ hd
  cases e; exact h'⟩

theorem assign_ok (rd : Params) (hr : Good rd) (f : Flat) (hf : Fine f) :
    ∃ rd', assign rd f = .ok rd' ∧ Good rd' ∧ ∀ key, key.Proper → value rd' key = (gives key f).or (value rd key) := by
  cases f with
  | top k v =>
    have hf : k ≠ "settings".toList := hf
    refine ⟨_, rfl, ⟨nodup_set _ _ _ hr.keys, ?_⟩, ?_⟩
    · intro w hw
      rw [PyDict.get_set, if_neg hf] at hw
      exact hr.settings w hw
    · intro key hk
      cases key with
      | param k' =>
        simp only [value, gives_top, PyDict.get_set]
        by_cases e : k = k'
        · rw [if_pos e, if_pos e]; rfl
        · rw [if_neg e, if_neg e]; rfl
      | setting sk =>
        simp only [value, gives_top_setting, PyDict.get_set]
        rw [if_neg hf]; rfl
  | sub k sk v =>
    have hf : k = "settings".toList := hf
    subst hf
    unfold assign
    dsimp only
    cases hg : PyDict.get "settings".toList rd with
    | none =>
      refine ⟨_, rfl, ⟨nodup_set _ _ _ hr.keys, ?_⟩, ?_⟩
      · intro w hw
        rw [PyDict.get_set, if_pos rfl] at hw
        exact ⟨_, (Option.some.inj hw).symm, by simp [IsDict]⟩
      · intro key hk
        cases key with
        | param k' =>
          have : "settings".toList ≠ k' := fun e => hk (by rw [e])
          simp only [value, gives_sub_param, PyDict.get_set]
          rw [if_neg this]; rfl
        | setting sk' =>
          simp only [value, gives_sub, PyDict.get_set, hg, if_true]
          rw [PyDict.get_cons]
          by_cases e : sk = sk'
          · rw [if_pos e, if_pos e]; rfl
          · rw [if_neg e, if_neg e]; rfl
    | some w =>
      obtain ⟨d, hd, hn⟩ := hr.settings w hg
      subst hd
      refine ⟨_, rfl, ⟨nodup_set _ _ _ hr.keys, ?_⟩, ?_⟩
      · intro w hw
        rw [PyDict.get_set, if_pos rfl] at hw
        exact ⟨_, (Option.some.inj hw).symm, nodup_set _ _ _ hn⟩
      · intro key hk
        cases key with
        | param k' =>
          have : "settings".toList ≠ k' := fun e => hk (by rw [e])
          simp only [value, gives_sub_param, PyDict.get_set]
          rw [if_neg this]; rfl
        | setting sk' =>
          simp only [value, gives_sub, PyDict.get_set, hg, if_true]
          by_cases e : sk = sk'
          · rw [if_pos e, if_pos e]; rfl
          · rw [if_neg e, if_neg e]; rfl

theorem assignAll_ok : ∀ (l : List Flat) (rd : Params), Good rd → (∀ f ∈ l, Fine f) →
    ∃ rd', assignAll rd l = .ok rd' ∧ Good rd' ∧ ∀ key, key.Proper → value rd' key = (says l key).or (value rd key)
  | [], rd, hr, _ => ⟨rd, rfl, hr, fun _ _ => rfl⟩
  | f :: l, rd, hr, hl => by
    obtain ⟨r1, h1, o1, v1⟩ := assign_ok rd hr f (hl f (by simp))
    obtain ⟨r2, h2, o2, v2⟩ := assignAll_ok l r1 o1 (fun g hg => hl g (by simp [hg]))
    refine ⟨r2, ?_, o2, ?_⟩
    · unfold assignAll; rw [h1]; exact h2
    · intro key hk
      rw [v2 key hk, v1 key hk, says_cons, Option.or_assoc]

theorem good_nil : Good [] := ⟨by simp [IsDict], fun v h => by cases h⟩

theorem normalize_ok (l : List Flat) (hl : ∀ f ∈ l, Fine f) :
    ∃ p, normalize l = .ok p ∧ Good p ∧ ∀ key, key.Proper → value p key = says l key := by
  obtain ⟨p, h, o, v⟩ := assignAll_ok l [] good_nil hl
  refine ⟨p, h, o, fun key hk => ?_⟩
  rw [v key hk]
  have : value [] key = none := by cases key <;> rfl
  rw [this, Option.or_none]

/-! ### Dictionaries -/

theorem says_subs (d : List (Str × Val)) (hd : IsDict d) (key : Key) :
    says (d.map fun e => Flat.sub "settings".toList e.1 e.2) key = match key with | .param _ => none | .setting k => (PyDict.get k d).map .val := by
  induction d with
  | nil => cases key <;> rfl
  | cons e d ih =>
    have hd' : e.1 ∉ d.map Prod.fst ∧ (d.map Prod.fst).Nodup := List.nodup_cons.1 hd
    rw [List.map_cons, says_cons, ih hd'.2]
    cases key with
    | param k => rfl
    | setting k =>
      dsimp only
      rw [PyDict.get_cons, gives_sub]
      by_cases h : e.1 = k
      · subst h
        rw [if_pos rfl, if_pos rfl]
        have : PyDict.get e.1 d = none := PyDict.get_none.2 fun x hx he => hd'.1 (List.mem_map.2 ⟨x, hx, he⟩)
        rw [this]; rfl
      · rw [if_neg h, if_neg h, Option.or_none]

theorem ok_tail {e : Str × Arg} {p : Params} (h : Ok (e :: p)) : Ok p ∧ e.1 ∉ p.map Prod.fst := by
  have hn := List.nodup_cons.1 h.keys
  refine ⟨⟨hn.2, fun v hv => ?_⟩, hn.1⟩
  apply h.settings v
  rw [PyDict.get_cons, if_neg, hv]
  intro he
  exact hn.1 (List.mem_map.2 ⟨_, PyDict.get_mem hv, he.symm⟩)

theorem dictOf_dict (d : List (Str × Val)) : ClientParams.dictOf (.dict d) = .ok d := rfl

theorem get_head {α : Type} (k : Str) (v : α) (p : List (Str × α)) : PyDict.get k ((k, v) :: p) = some v := by
  rw [PyDict.get_cons]; simp

theorem get_tail {α : Type} {k k' : Str} (v : α) (p : List (Str × α)) (h : k ≠ k') : PyDict.get k' ((k, v) :: p) = PyDict.get k' p := by
  rw [PyDict.get_cons]; simp [h]

theorem dictOf_ok {v : Arg} {d : List (Str × Val)} (h : ClientParams.dictOf v = .ok d) : v = .dict d ∨ (∃ x, v = .val x) ∧ d = [] := by
  unfold ClientParams.dictOf at h
  split at h <;> cases h
  · exact .inl rfl
  · exact .inr ⟨⟨_, rfl⟩, rfl⟩
  · exact .inr ⟨⟨_, rfl⟩, rfl⟩

theorem denormalize_cons {k : Str} {v : Arg} {p : Params} {l : List Flat} (h : denormalize ((k, v) :: p) = .ok l) :
    ∃ a b, denormalize p = .ok b ∧ l = a ++ b ∧
      ((k = "settings".toList ∧ ∃ d, ClientParams.dictOf v = .ok d ∧ a = d.map fun e => Flat.sub "settings".toList e.1 e.2) ∨ (k ≠ "settings".toList ∧ a = [Flat.top k v])) := by
  rw [denormalize] at h
  by_cases e : k = "settings".toList
  · rw [if_pos e] at h
    unfold xSettings at h
    cases hd : ClientParams.dictOf v with
    | error x => rw [hd] at h; cases h
    | ok d =>
      rw [hd] at h
      simp only [Except.map] at h
      cases hp : denormalize p with
      | error x => rw [hp] at h; cases h
      | ok b => rw [hp] at h; exact ⟨_, b, rfl, (Except.ok.inj h).symm, .inl ⟨e, d, rfl, rfl⟩⟩
  · rw [if_neg e] at h
    cases hp : denormalize p with
    | error x => rw [hp] at h; cases h
    | ok b => rw [hp] at h; exact ⟨_, b, rfl, (Except.ok.inj h).symm, .inr ⟨e, rfl⟩⟩

theorem denormalize_ok : ∀ (p : Params) (l : List Flat), Ok p → denormalize p = .ok l → (∀ f ∈ l, Fine f) ∧ ∀ key, key.Proper → says l key = value p key
  | [], l, _, h => by cases h; exact ⟨by simp, fun key _ => by cases key <;> rfl⟩
  | (k, v) :: p, l, h, hl => by
    obtain ⟨hp, hk⟩ := ok_tail h
    obtain ⟨a, b, h1, rfl, hc⟩ := denormalize_cons hl
    obtain ⟨h2, h3⟩ := denormalize_ok p b hp h1
    rcases hc with ⟨rfl, d, hd, rfl⟩ | ⟨e, rfl⟩
    · have hd' : IsDict d := by
        rcases dictOf_ok hd with rfl | ⟨-, rfl⟩
        · exact h.settings d (get_head _ _ p)
        · simp [IsDict]
      refine ⟨?_, ?_⟩
      · intro f hf
        rcases List.mem_append.1 hf with hf | hf
        · obtain ⟨x, -, rfl⟩ := List.mem_map.1 hf; rfl
        · exact h2 f hf
      · intro key hkey
        rw [says_append, h3 key hkey, says_subs d hd' key]
        have hnone : PyDict.get "settings".toList p = none := PyDict.get_none.2 fun x hx he => hk (List.mem_map.2 ⟨x, hx, he⟩)
        cases key with
        | param k' =>
          have : "settings".toList ≠ k' := fun e => hkey (by rw [e])
          dsimp only [value]
          rw [Option.or_none, get_tail _ _ this]
        | setting k' =>
          dsimp only [value]
          rw [hnone, get_head]
          rcases dictOf_ok hd with rfl | ⟨⟨x, rfl⟩, rfl⟩ <;> rfl
    · refine ⟨?_, ?_⟩
      · intro f hf
        rcases List.mem_cons.1 hf with rfl | hf
        · exact e
        · exact h2 f hf
      · intro key hkey
        rw [List.singleton_append, says_cons, h3 key hkey]
        cases key with
        | param k' =>
          dsimp only [value]
          rw [PyDict.get_cons, gives_top]
          by_cases h' : k = k'
          · subst h'
            have : PyDict.get k p = none := PyDict.get_none.2 fun x hx he => hk (List.mem_map.2 ⟨x, hx, he⟩)
            rw [this, if_pos rfl]; rfl
          · rw [if_neg h', if_neg h', Option.or_none]
        | setting k' =>
          dsimp only [value]
          rw [get_tail _ _ e, gives_top_setting, Option.or_none]

/-- Nothing fails if the settings are a dictionary. -/
theorem denormalize_total : ∀ (p : Params), Good p → ∃ l, denormalize p = .ok l
  | [], _ => ⟨[], rfl⟩
  | (k, v) :: p, h => by
    have hn := List.nodup_cons.1 h.keys
    have hp : Good p := ⟨hn.2, fun w hw => h.settings w (by
      rw [get_tail _ _ (fun e => hn.1 (List.mem_map.2 ⟨_, PyDict.get_mem hw, e.symm⟩)), hw])⟩
    obtain ⟨l, hl⟩ := denormalize_total p hp
    rw [denormalize, hl]
    by_cases e : k = "settings".toList
    · subst e
      obtain ⟨d, rfl, -⟩ := h.settings v (get_head _ v p)
      rw [if_pos rfl]
      simp only [xSettings, dictOf_dict, Except.map]
      exact ⟨_, rfl⟩
    · rw [if_neg e]; exact ⟨_, rfl⟩

theorem mergeAll_ok : ∀ (ps : List Params) (l : List Flat), (∀ p ∈ ps, Ok p) → mergeAll ps = .ok l →
    (∀ f ∈ l, Fine f) ∧ ∀ key, key.Proper → says l key = (ps.reverse.map fun p => value p key).findSome? id
  | [], l, _, h => by cases h; exact ⟨by simp, fun _ _ => rfl⟩
  | p :: ps, l, h, hl => by
    rw [mergeAll] at hl
    cases ha : denormalize p with
    | error e => rw [ha] at hl; cases hl
    | ok a =>
      rw [ha] at hl
      cases hb : mergeAll ps with
      | error e => rw [hb] at hl; cases hl
      | ok b =>
        rw [hb] at hl
        cases hl
        obtain ⟨a2, a3⟩ := denormalize_ok p a (h p (by simp)) ha
        obtain ⟨b2, b3⟩ := mergeAll_ok ps b (fun q hq => h q (by simp [hq])) hb
        refine ⟨?_, ?_⟩
        · intro f hf
          rcases List.mem_append.1 hf with hf | hf
          · exact a2 f hf
          · exact b2 f hf
        · intro key hk
          rw [says_append, a3 key hk, b3 key hk, List.reverse_cons, List.map_append, List.findSome?_append]
          simp

theorem merge_ok (ps : List Params) (h : ∀ p ∈ ps, Ok p) (p : Params) (hp : merge ps = .ok p) :
    Good p ∧ ∀ key, key.Proper → value p key = strongest (ps.reverse.map fun p => value p key) := by
  unfold merge at hp
  cases hm : mergeAll ps with
  | error e => rw [hm] at hp; cases hp
  | ok l =>
    rw [hm] at hp
    obtain ⟨h2, h3⟩ := mergeAll_ok ps l h hm
    obtain ⟨q, p1, p2, p3⟩ := normalize_ok l h2
    have : q = p := Except.ok.inj (p1.symm.trans hp)
    subst this
    exact ⟨p2, fun key hk => by rw [p3 key hk, h3 key hk]; rfl⟩

end PG.Props.ClientParams
