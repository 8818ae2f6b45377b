import Verif.Spec.Negotiation
import Verif.Proofs.Reply2
/-!
# The invariant of a connection negotiation
-/
namespace PG.Negotiation
open PG PG.Element3 PG.Xact3 PG.Spec.Reply PG.Spec.Negotiation

section
variable (c : Crypto) (st : List (Bytes × Option Bytes)) (pwd : Bytes)

/-- The server asked for a password and `pw` answers it. -/
def Asked (x : Msg) (pw : Bytes) : Prop := ∃ req salt, IsRequest x req salt ∧ Answers c st pwd req salt pw

/-- Authentication is over. -/
def Auth (wire : List Elem) (q : List Msg) (rest : List Msg) : Prop :=
  (∃ x salt, q = x :: rest ∧ IsRequest x 0 salt ∧ wire = [.startup st]) ∨
  (∃ x y pw salt, q = x :: y :: rest ∧ Asked c st pwd x pw ∧ parseK .authentication y.2 = .ok (.authentication 0 salt) ∧ y.1 ≠ 69 ∧
    wire = [.startup st, .str .password pw])

/-- A negotiation under way or successful, by the place of its generator; `q`: the messages seen that are not asynchronous. -/
def Live (n : Neg) (wire : List Elem) (q : List Msg) : Prop :=
  n.fatal = none ∧ match n.mach with
  | .awaitAuth => q = [] ∧ ((n.state = .sending ∧ n.messages = [.startup st] ∧ wire = []) ∨ (n.state = .receiving ∧ wire = [.startup st]))
  | .awaitOk => ∃ x pw, q = [x] ∧ Asked c st pwd x pw ∧
      ((n.state = .sending ∧ n.messages = [.str .password pw] ∧ wire = [.startup st]) ∨
       (n.state = .receiving ∧ wire = [.startup st, .str .password pw]))
  | .awaitKill => n.state = .receiving ∧ Auth c st pwd wire q []
  | .awaitReady => n.state = .receiving ∧ ∃ k pid key, k.1 = 75 ∧ parseK .killInformation k.2 = .ok (.killInformation pid key) ∧
      n.killinfo = some (pid, key) ∧ Auth c st pwd wire q [k]
  | .finished => n.state = .complete ∧ ∃ k pid key z d, k.1 = 75 ∧ parseK .killInformation k.2 = .ok (.killInformation pid key) ∧
      n.killinfo = some (pid, key) ∧ z.1 = 90 ∧ parseK .ready z.2 = .ok (.ready d) ∧ n.lastReady = some d ∧ Auth c st pwd wire q [k, z]

/-- What was written is the startup message and at most one answer to a request. -/
def WireOk (wire : List Elem) (q : List Msg) : Prop :=
  wire = [] ∨ wire = [.startup st] ∨ ∃ x rest pw, q = x :: rest ∧ Asked c st pwd x pw ∧ wire = [.startup st, .str .password pw]

/-- A negotiation that failed. -/
def Dead (n : Neg) (wire : List Elem) (q : List Msg) : Prop := n.state = .complete ∧ n.fatal = some true ∧ WireOk c st pwd wire q

def Inv (n : Neg) (wire : List Elem) (seen : List Msg) : Prop :=
  n.startup = st ∧ n.password = pwd ∧ (Live c st pwd n wire (strip seen) ∨ Dead c st pwd n wire (strip seen))
end

variable {c : Crypto} {st : List (Bytes × Option Bytes)} {pwd : Bytes}

theorem Auth.wireOk {wire q r} (h : Auth c st pwd wire q r) : WireOk c st pwd wire q := by
  rcases h with ⟨x, salt, rfl, _, rfl⟩ | ⟨x, y, pw, salt, rfl, ha, _, _, rfl⟩
  · exact .inr (.inl rfl)
  · exact .inr (.inr ⟨x, _, pw, rfl, ha, rfl⟩)

theorem Live.wireOk {n : Neg} {wire q} (h : Live c st pwd n wire q) : WireOk c st pwd wire q := by
  obtain ⟨_, h⟩ := h
  split at h
  · obtain ⟨_, ⟨_, _, rfl⟩ | ⟨_, rfl⟩⟩ := h
    · exact .inl rfl
    · exact .inr (.inl rfl)
  · obtain ⟨x, pw, rfl, ha, ⟨_, _, rfl⟩ | ⟨_, rfl⟩⟩ := h
    · exact .inr (.inl rfl)
    · exact .inr (.inr ⟨x, [], pw, rfl, ha, rfl⟩)
  · exact h.2.wireOk
  · obtain ⟨_, _, _, _, _, _, _, h⟩ := h; exact h.wireOk
  · obtain ⟨_, _, _, _, _, _, _, _, _, _, _, _, h⟩ := h; exact h.wireOk

theorem WireOk.append {wire q} (h : WireOk c st pwd wire q) (r : List Msg) : WireOk c st pwd wire (q ++ r) := by
  rcases h with rfl | rfl | ⟨x, rest, pw, rfl, ha, rfl⟩
  · exact .inl rfl
  · exact .inr (.inl rfl)
  · exact .inr (.inr ⟨x, rest ++ r, pw, rfl, ha, rfl⟩)

theorem Auth.append {wire q r} (h : Auth c st pwd wire q r) (x : Msg) : Auth c st pwd wire (q ++ [x]) (r ++ [x]) := by
  rcases h with ⟨y, salt, rfl, ha, rfl⟩ | ⟨x, y, pw, salt, rfl, ha, hb, hc, rfl⟩
  · exact .inl ⟨y, salt, rfl, ha, rfl⟩
  · exact .inr ⟨x, y, pw, salt, rfl, ha, hb, hc, rfl⟩

theorem answer_answers {n : Neg} (hs : n.startup = st) (hp : n.password = pwd) {req salt pw} (h : answer c n req salt = some (.ok pw)) :
    Answers c st pwd req salt pw := by
  unfold answer at h
  rw [hs, hp] at h
  split at h
  · rename_i e; cases h; rw [e]; exact .cleartext
  split at h
  · rename_i e; rw [e]; exact .crypt (Option.some.inj h)
  split at h
  · rename_i e
    rw [e]
    have h := Option.some.inj h
    split at h
    · cases h
    · cases h
    · rename_i user hu
      cases h
      exact .md5 hu
  · cases h

/-- One step of the generator. -/
theorem send_inv {n : Neg} {wire q} {x : Msg} (hs : n.startup = st) (hp : n.password = pwd) (hl : Live c st pwd n wire q)
    (hr : n.state = .receiving) (hx : x.1 ≠ 69) {n' : Neg} {r : Sent} (h : send c n x = (n', r)) :
    n'.startup = st ∧ n'.password = pwd ∧ n'.asyncs = n.asyncs ∧
    (r = .stop → Live c st pwd { n' with state := .complete } wire (q ++ [x]) ∨ Dead c st pwd { n' with state := .complete } wire (q ++ [x])) ∧
    (r = .yields [] → n'.state = .receiving ∧ Live c st pwd n' wire (q ++ [x])) ∧
    (∀ o os, r = .yields (o :: os) → Live c st pwd { n' with messages := o :: os, state := .sending } wire (q ++ [x])) := by
  have hw := hl.wireOk.append [x]
  obtain ⟨hf, hl⟩ := hl
  have notYield : ∀ {P : Prop}, Sent.stop = .yields [] → P := fun e => (nomatch e)
  unfold send at h
  cases hm : n.mach with
  | awaitAuth =>
    rw [hm] at h hl
    dsimp only at h hl
    obtain ⟨rfl, ⟨h1, _⟩ | ⟨_, rfl⟩⟩ := hl
    · rw [hr] at h1; cases h1
    split at h
    · cases h
      exact ⟨hs, hp, rfl, fun _ => .inr ⟨rfl, rfl, hw⟩, notYield, fun _ _ e => (nomatch e)⟩
    rename_i h82
    have h82 : x.1 = 82 := Decidable.not_not.mp h82
    split at h
    · cases h
      exact ⟨hs, hp, rfl, fun e => (nomatch e), fun e => (nomatch e), fun _ _ e => (nomatch e)⟩
    · rename_i req salt hpar
      split at h
      · rename_i h0
        cases h
        refine ⟨hs, hp, rfl, fun e => (nomatch e), fun _ => ⟨hr, hf, hr, .inl ⟨x, salt, rfl, ⟨h82, ?_⟩, rfl⟩⟩, fun _ _ e => (nomatch e)⟩
        rw [hpar, h0]
      · split at h
        · cases h
          exact ⟨hs, hp, rfl, fun _ => .inr ⟨rfl, rfl, hw⟩, notYield, fun _ _ e => (nomatch e)⟩
        · cases h
          exact ⟨hs, hp, rfl, fun e => (nomatch e), fun e => (nomatch e), fun _ _ e => (nomatch e)⟩
        · rename_i pw ha
          cases h
          refine ⟨hs, hp, rfl, fun e => (nomatch e), fun e => (nomatch e), fun o os e => ?_⟩
          cases e
          exact ⟨hf, x, pw, rfl, ⟨req, salt, ⟨h82, hpar⟩, answer_answers (n := { n with authtype := some (req, salt) }) hs hp ha⟩, .inl ⟨rfl, rfl, rfl⟩⟩
    · cases h
      exact ⟨hs, hp, rfl, fun e => (nomatch e), fun e => (nomatch e), fun _ _ e => (nomatch e)⟩
  | awaitOk =>
    rw [hm] at h hl
    dsimp only at h hl
    obtain ⟨y, pw, rfl, hask, ⟨h1, _⟩ | ⟨_, rfl⟩⟩ := hl
    · rw [hr] at h1; cases h1
    split at h
    · cases h
      exact ⟨hs, hp, rfl, fun e => (nomatch e), fun e => (nomatch e), fun _ _ e => (nomatch e)⟩
    · rename_i req salt hpar
      split at h
      · cases h
        exact ⟨hs, hp, rfl, fun _ => .inr ⟨rfl, rfl, hw⟩, notYield, fun _ _ e => (nomatch e)⟩
      · rename_i h0
        cases h
        refine ⟨hs, hp, rfl, fun e => (nomatch e), fun _ => ⟨hr, hf, hr, .inr ⟨y, x, pw, salt, rfl, hask, ?_, hx, rfl⟩⟩, fun _ _ e => (nomatch e)⟩
        rw [hpar, Decidable.not_not.mp h0]
    · cases h
      exact ⟨hs, hp, rfl, fun e => (nomatch e), fun e => (nomatch e), fun _ _ e => (nomatch e)⟩
  | awaitKill =>
    rw [hm] at h hl
    dsimp only at h hl
    split at h
    · cases h
      exact ⟨hs, hp, rfl, fun _ => .inr ⟨rfl, rfl, hw⟩, notYield, fun _ _ e => (nomatch e)⟩
    rename_i h75
    split at h
    · cases h
      exact ⟨hs, hp, rfl, fun e => (nomatch e), fun e => (nomatch e), fun _ _ e => (nomatch e)⟩
    · rename_i pid key hpar
      cases h
      exact ⟨hs, hp, rfl, fun e => (nomatch e), fun _ => ⟨hr, hf, hr, x, pid, key, Decidable.not_not.mp h75, hpar, rfl, hl.2.append x⟩, fun _ _ e => (nomatch e)⟩
    · cases h
      exact ⟨hs, hp, rfl, fun e => (nomatch e), fun e => (nomatch e), fun _ _ e => (nomatch e)⟩
  | awaitReady =>
    rw [hm] at h hl
    dsimp only at h hl
    obtain ⟨_, k, pid, key, hk, hk2, hki, hau⟩ := hl
    split at h
    · cases h
      exact ⟨hs, hp, rfl, fun _ => .inr ⟨rfl, rfl, hw⟩, notYield, fun _ _ e => (nomatch e)⟩
    rename_i h90
    split at h
    · cases h
      exact ⟨hs, hp, rfl, fun e => (nomatch e), fun e => (nomatch e), fun _ _ e => (nomatch e)⟩
    · rename_i d hpar
      cases h
      exact ⟨hs, hp, rfl, fun _ => .inl ⟨hf, rfl, k, pid, key, x, d, hk, hk2, hki, Decidable.not_not.mp h90, hpar, rfl, hau.append x⟩, notYield, fun _ _ e => (nomatch e)⟩
    · cases h
      exact ⟨hs, hp, rfl, fun e => (nomatch e), fun e => (nomatch e), fun _ _ e => (nomatch e)⟩
  | finished =>
    rw [hm] at hl
    dsimp only at hl
    rw [hr] at hl
    cases hl.1

theorem strip_snoc_async {q : List Msg} {x : Msg} {k} (h : asyncKind x.1 = some k) : strip (q ++ [x]) = strip q := by
  unfold strip
  rw [List.filter_append, List.filter_cons_of_neg (by rw [h]; simp), List.filter_nil, List.append_nil]

theorem strip_snoc_other {q : List Msg} {x : Msg} (h : asyncKind x.1 = none) : strip (q ++ [x]) = strip q ++ [x] := by
  unfold strip
  rw [List.filter_append, List.filter_cons_of_pos (by rw [h]; rfl), List.filter_nil]

theorem loop_inv : ∀ (ms : List Msg) (n : Neg) (k : Nat) (wire : List Elem) (seen : List Msg) (n' : Neg) (k' : Nat),
    n.startup = st → n.password = pwd → n.state = .receiving → Live c st pwd n wire (strip seen) → loop c n k ms = (n', .ok k') →
    ∃ j, k' = k + j ∧ Inv c st pwd n' wire (seen ++ ms.take j) ∧
      (∀ m0 x m1, ms.take j = m0 ++ x :: m1 → x.1 = 69 → n'.state = .complete ∧ n'.fatal = some true ∧
        ∃ em, parseK .error x.2 = .ok (.error em) ∧ n'.errorMessage = some (.server em))
  | [], n, k, wire, seen, n', k', hs, hp, hr, hl, h => by
    cases h
    refine ⟨0, rfl, ⟨hs, hp, .inl (by simpa using hl)⟩, fun m0 x m1 e => ?_⟩
    simp at e
  | x :: xs, n, k, wire, seen, n', k', hs, hp, hr, hl, h => by
    have lift : ∀ {j}, x.1 ≠ 69 → (∀ m0 y m1, xs.take j = m0 ++ y :: m1 → y.1 = 69 → n'.state = .complete ∧ n'.fatal = some true ∧
        ∃ em, parseK .error y.2 = .ok (.error em) ∧ n'.errorMessage = some (.server em)) →
        (∀ m0 y m1, (x :: xs).take (j + 1) = m0 ++ y :: m1 → y.1 = 69 → n'.state = .complete ∧ n'.fatal = some true ∧
        ∃ em, parseK .error y.2 = .ok (.error em) ∧ n'.errorMessage = some (.server em)) := by
      intro j hx hr m0 y m1 e hy
      rw [List.take_succ_cons] at e
      cases m0 with
      | nil => cases e; exact absurd hy hx
      | cons z m0 => exact hr m0 y m1 (List.cons.inj e).2 hy
    have one : x.1 ≠ 69 → (∀ m0 y m1, (x :: xs).take 1 = m0 ++ y :: m1 → y.1 = 69 → n'.state = .complete ∧ n'.fatal = some true ∧
        ∃ em, parseK .error y.2 = .ok (.error em) ∧ n'.errorMessage = some (.server em)) :=
      fun hx => lift (j := 0) hx (fun m0 y m1 e => by simp at e)
    unfold loop at h
    split at h
    · rename_i h69
      have hna : asyncKind x.1 = none := by rw [h69]; rfl
      rw [if_pos hl.1] at h
      split at h
      · cases h
      · rename_i em hem
        cases h
        refine ⟨1, rfl, ⟨hs, hp, .inr ⟨rfl, rfl, ?_⟩⟩, fun m0 y m1 e hy => ?_⟩
        · have := hl.wireOk.append [x]
          rw [List.take_succ_cons, List.take_zero, strip_snoc_other hna]
          exact this
        · cases m0 with
          | nil => cases e; exact ⟨rfl, rfl, em, hem, rfl⟩
          | cons z m0 => simp at e
      · cases h
    · rename_i h69
      split at h
      · rename_i kk hkk
        split at h
        · cases h
        · rename_i m hm
          obtain ⟨j, h1, h2, h3⟩ := loop_inv xs { n with asyncs := n.asyncs ++ [m] } (k + 1) wire (seen ++ [x]) n' k' hs hp hr
            (by rw [strip_snoc_async hkk]; exact hl) h
          refine ⟨j + 1, by omega, ?_, lift h69 h3⟩
          rw [List.take_succ_cons]
          simpa using h2
      · rename_i hna
        cases hsend : send c n x with
        | mk n1 r =>
          rw [hsend] at h
          obtain ⟨a1, a2, _, a3, a4, a5⟩ := send_inv hs hp hl hr h69 hsend
          cases r with
          | raises e => cases h
          | stop =>
            cases h
            refine ⟨1, rfl, ⟨a1, a2, ?_⟩, one h69⟩
            rw [List.take_succ_cons, List.take_zero, strip_snoc_other hna]
            exact a3 rfl
          | yields out =>
            cases out with
            | nil =>
              obtain ⟨b1, b2⟩ := a4 rfl
              obtain ⟨j, h1, h2, h3⟩ := loop_inv xs n1 (k + 1) wire (seen ++ [x]) n' k' a1 a2 b1 (by rw [strip_snoc_other hna]; exact b2) h
              refine ⟨j + 1, by omega, ?_, lift h69 h3⟩
              rw [List.take_succ_cons]
              simpa using h2
            | cons o os =>
              cases h
              refine ⟨1, rfl, ⟨a1, a2, .inl ?_⟩, one h69⟩
              rw [List.take_succ_cons, List.take_zero, strip_snoc_other hna]
              exact a5 o os rfl

theorem hist_inv {n wire seen} (h : Hist c st pwd n wire seen) : Inv c st pwd n wire seen := by
  induction h with
  | start => exact ⟨rfl, rfl, .inl ⟨rfl, rfl, .inl ⟨rfl, rfl, rfl⟩⟩⟩
  | @write n wire seen _ hs ih =>
    obtain ⟨h1, h2, hl | ⟨hd, _⟩⟩ := ih
    · refine ⟨h1, h2, .inl ⟨hl.1, ?_⟩⟩
      have hl := hl.2
      unfold sent
      dsimp only
      split at hl
      · obtain ⟨hq, ⟨_, hm, rfl⟩ | ⟨hx, _⟩⟩ := hl
        · exact ⟨hq, .inr ⟨rfl, by rw [hm]; rfl⟩⟩
        · rw [hs] at hx; cases hx
      · obtain ⟨x, pw, hq, ha, ⟨_, hm, rfl⟩ | ⟨hx, _⟩⟩ := hl
        · exact ⟨x, pw, hq, ha, .inr ⟨rfl, by rw [hm]; rfl⟩⟩
        · rw [hs] at hx; cases hx
      · rw [hs] at hl; cases hl.1
      · rw [hs] at hl; cases hl.1
      · rw [hs] at hl; cases hl.1
    · rw [hs] at hd; cases hd
  | @read n wire seen b n' k _ hs hput ih =>
    obtain ⟨h1, h2, hl | ⟨hd, _⟩⟩ := ih
    · unfold put at hput
      split at hput
      · cases hput
      · obtain ⟨j, e, hi, _⟩ := loop_inv b.msgs { n with lastId := b.id } 0 wire seen n' k h1 h2 hs hl hput
        have : j = k := by omega
        subst this
        exact hi
    · rw [hs] at hd; cases hd

end PG.Negotiation
