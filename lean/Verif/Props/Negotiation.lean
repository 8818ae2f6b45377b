import Verif.Proofs.Negotiation
/-!
# C14: the password is released only on request, and a negotiation succeeds only after authentication

`Hist c startup password n wire seen`: a negotiation object came to `n`, having written `wire` and consumed the messages `seen`
of the server (`Spec/Negotiation.lean`).  The server is arbitrary.
-/
namespace PG.Props.Negotiation
open PG PG.Element3 PG.Xact3 PG.Negotiation PG.Spec.Reply PG.Spec.Negotiation

/-- C14, the wire: at any time the client has written nothing, the startup message, or the startup message and one password
message; the latter only after the server's first message (asynchronous ones left out) was a request for it, and in the
requested form.  `n.messages`, to be written next, obeys the same rule. -/
theorem C14_password_only_on_request {c : Crypto} {st : List (Bytes × Option Bytes)} {pwd : Bytes} {n : Neg} {wire : List Elem}
    {seen : List Msg} (h : Hist c st pwd n wire seen) :
    let out := wire ++ (if n.state = .sending then n.messages else [])
    out = [] ∨ out = [.startup st] ∨
    ∃ x rest req salt pw, strip seen = x :: rest ∧ IsRequest x req salt ∧ Answers c st pwd req salt pw ∧
      out = [.startup st, .str .password pw] := by
  obtain ⟨_, _, hi⟩ := hist_inv h
  have fromWire : WireOk c st pwd wire (strip seen) → wire = [] ∨ wire = [.startup st] ∨
      ∃ x rest req salt pw, strip seen = x :: rest ∧ IsRequest x req salt ∧ Answers c st pwd req salt pw ∧
        wire = [.startup st, .str .password pw] := by
    rintro (h | h | ⟨x, rest, pw, h1, ⟨req, salt, h2, h3⟩, h4⟩)
    · exact .inl h
    · exact .inr (.inl h)
    · exact .inr (.inr ⟨x, rest, req, salt, pw, h1, h2, h3, h4⟩)
  by_cases hs : n.state = .sending
  · dsimp only
    rw [if_pos hs]
    rcases hi with hl | hd
    · have hl := hl.2
      split at hl
      · obtain ⟨_, ⟨_, hm, rfl⟩ | ⟨hx, _⟩⟩ := hl
        · exact .inr (.inl (by rw [hm]; rfl))
        · rw [hs] at hx; cases hx
      · obtain ⟨x, pw, hq, ⟨req, salt, h2, h3⟩, ⟨_, hm, rfl⟩ | ⟨hx, _⟩⟩ := hl
        · exact .inr (.inr ⟨x, [], req, salt, pw, hq, h2, h3, by rw [hm]; rfl⟩)
        · rw [hs] at hx; cases hx
      · rw [hs] at hl; cases hl.1
      · rw [hs] at hl; cases hl.1
      · rw [hs] at hl; cases hl.1
    · obtain ⟨hx, _⟩ := hd; rw [hs] at hx; cases hx
  · dsimp only
    rw [if_neg hs, List.append_nil]
    rcases hi with hl | hd
    · exact fromWire hl.wireOk
    · exact fromWire hd.2.2

/-- C14, success: a negotiation that completed without a fatal error has seen, in this order and nothing else (asynchronous
messages left out): authentication-OK, or a request, answered as requested, and an OK; then the key data; then a ready
message.  Missing, hence `_partial`: the type of the second OK message is not checked (`C14_ok_of_any_type`). -/
theorem C14_success_partial {c : Crypto} {st : List (Bytes × Option Bytes)} {pwd : Bytes} {n : Neg} {wire : List Elem}
    {seen : List Msg} (h : Hist c st pwd n wire seen) (hc : n.state = .complete) (hf : n.fatal = none) :
    ∃ auth k z pid key d, strip seen = auth ++ [k, z] ∧
      k.1 = 75 ∧ parseK .killInformation k.2 = .ok (.killInformation pid key) ∧ n.killinfo = some (pid, key) ∧
      z.1 = 90 ∧ parseK .ready z.2 = .ok (.ready d) ∧ n.lastReady = some d ∧
      ((∃ x salt, auth = [x] ∧ IsRequest x 0 salt ∧ wire = [.startup st]) ∨
       (∃ x y req salt pw salt', auth = [x, y] ∧ IsRequest x req salt ∧ Answers c st pwd req salt pw ∧
          parseK .authentication y.2 = .ok (.authentication 0 salt') ∧ y.1 ≠ 69 ∧ wire = [.startup st, .str .password pw])) := by
  obtain ⟨_, _, hl | hd⟩ := hist_inv h
  · have hl := hl.2
    split at hl
    · obtain ⟨_, ⟨hx, _⟩ | ⟨hx, _⟩⟩ := hl <;> (rw [hc] at hx; cases hx)
    · obtain ⟨_, _, _, _, ⟨hx, _⟩ | ⟨hx, _⟩⟩ := hl <;> (rw [hc] at hx; cases hx)
    · rw [hc] at hl; cases hl.1
    · rw [hc] at hl; cases hl.1
    · obtain ⟨_, k, pid, key, z, d, h1, h2, h3, h4, h5, h6, h7⟩ := hl
      rcases h7 with ⟨x, salt, e, ha, hw⟩ | ⟨x, y, pw, salt', e, ⟨req, salt, ha, ha'⟩, hb, hb', hw⟩
      · exact ⟨[x], k, z, pid, key, d, e, h1, h2, h3, h4, h5, h6, .inl ⟨x, salt, rfl, ha, hw⟩⟩
      · exact ⟨[x, y], k, z, pid, key, d, e, h1, h2, h3, h4, h5, h6, .inr ⟨x, y, req, salt, pw, salt', rfl, ha, ha', hb, hb', hw⟩⟩
  · rw [hd.2.1] at hf; cases hf

/-- C14, failure: an error message of the server among the consumed messages of a delivery ends the negotiation, fatally, with that error. -/
theorem C14_error_is_fatal {c : Crypto} {st : List (Bytes × Option Bytes)} {pwd : Bytes} {n : Neg} {wire : List Elem}
    {seen : List Msg} (h : Hist c st pwd n wire seen) (hs : n.state = .receiving) {b : Batch} {n' : Neg} {k : Nat}
    (hp : put c n b = (n', .ok k)) {x : Msg} (hx : x ∈ b.msgs.take k) (he : x.1 = 69) :
    n'.state = .complete ∧ n'.fatal = some true ∧ ∃ em, parseK .error x.2 = .ok (.error em) ∧ n'.errorMessage = some (.server em) := by
  obtain ⟨h1, h2, hl | hd⟩ := hist_inv h
  · unfold put at hp
    split at hp
    · cases hp
    · obtain ⟨j, e, _, hi⟩ := loop_inv b.msgs { n with lastId := b.id } 0 wire seen n' k h1 h2 hs hl hp
      have : j = k := by omega
      subst this
      obtain ⟨m0, m1, hm⟩ := List.append_of_mem hx
      exact hi m0 x m1 hm he
  · have := hd.1; rw [hs] at this; cases this

/-- C14: a completed negotiation is either fatal or successful in the sense above; there is no third outcome, and a fatal one
is complete. -/
theorem C14_outcome {c : Crypto} {st : List (Bytes × Option Bytes)} {pwd : Bytes} {n : Neg} {wire : List Elem}
    {seen : List Msg} (h : Hist c st pwd n wire seen) :
    (n.fatal = none ∨ n.fatal = some true) ∧ (n.fatal = some true → n.state = .complete) := by
  obtain ⟨_, _, hl | hd⟩ := hist_inv h
  · exact ⟨.inl hl.1, fun e => by rw [hl.1] at e; cases e⟩
  · exact ⟨.inr hd.2.1, fun _ => hd.1⟩

/-- C14: a request other than OK, cleartext, crypt and MD5 as the first message is fatal, and nothing but the startup message is
ever written. -/
theorem C14_unsupported_is_fatal {c : Crypto} {st : List (Bytes × Option Bytes)} {pwd : Bytes} {n : Neg} {wire : List Elem}
    {seen : List Msg} (h : Hist c st pwd n wire seen) {x : Msg} {rest : List Msg} (hx : strip seen = x :: rest) {req : Int} {salt : Bytes}
    (hr : IsRequest x req salt) (hu : req ≠ 0 ∧ req ≠ 3 ∧ req ≠ 4 ∧ req ≠ 5) :
    n.state = .complete ∧ n.fatal = some true ∧ (wire = [] ∨ wire = [.startup st]) := by
  have noAsk : ∀ pw, ¬ Asked c st pwd x pw := by
    rintro pw ⟨req', salt', ⟨_, h2⟩, h3⟩
    rw [hr.2] at h2
    cases h2
    cases h3
    · exact hu.2.1 rfl
    · exact hu.2.2.1 rfl
    · exact hu.2.2.2 rfl
  have noAuth : ∀ w r, ¬ Auth c st pwd w (x :: rest) r := by
    rintro w r (⟨y, salt', e, ⟨_, ha⟩, _⟩ | ⟨y, z, pw, salt', e, ha, _⟩)
    · cases e
      rw [hr.2] at ha
      cases ha
      exact hu.1 rfl
    · cases e
      exact noAsk _ ha
  obtain ⟨_, _, hl | ⟨h1, h2, h3⟩⟩ := hist_inv h
  · exfalso
    rw [hx] at hl
    have hl := hl.2
    split at hl
    · cases hl.1
    · obtain ⟨y, pw, e, ha, _⟩ := hl
      cases e
      exact noAsk _ ha
    · exact noAuth _ _ hl.2
    · obtain ⟨_, _, _, _, _, _, _, h⟩ := hl; exact noAuth _ _ h
    · obtain ⟨_, _, _, _, _, _, _, _, _, _, _, _, h⟩ := hl; exact noAuth _ _ h
  · refine ⟨h1, h2, ?_⟩
    rcases h3 with h | h | ⟨y, r, pw, e, ha, _⟩
    · exact .inl h
    · exact .inr h
    · rw [hx] at e
      cases e
      exact absurd ha (noAsk _)

/-! Non-vacuity: an MD5 authentication (with stand-ins for the digests) succeeds, with a parameter message in between. -/
/-- Stand-ins: `crypt` concatenates, the digest is the identity. -/
def demoCrypto : Crypto := ⟨fun p s => .ok (p ++ s), id⟩
def demoStart : List (Bytes × Option Bytes) := [([117, 115, 101, 114], some [98, 111, 98])]
def demoSeen : List Msg := [(82, [0, 0, 0, 5, 1, 2, 3, 4]), (83, [97, 0, 98, 0]), (82, [0, 0, 0, 0]), (75, [0, 0, 0, 1, 0, 0, 0, 2]), (90, [73])]

def demoN1 : Neg := (put demoCrypto (sent (init demoStart [112, 119])) ⟨1, demoSeen.take 1⟩).1
def demoN2 : Neg := (put demoCrypto (sent demoN1) ⟨2, demoSeen.drop 1⟩).1

theorem demo_hist : Hist demoCrypto demoStart [112, 119] demoN2
    [.startup demoStart, .str .password [109, 100, 53, 112, 119, 98, 111, 98, 1, 2, 3, 4]] demoSeen := by
  have h1 : Hist demoCrypto demoStart [112, 119] (sent (init demoStart [112, 119])) [.startup demoStart] [] := .write .start rfl
  have h2 : Hist demoCrypto demoStart [112, 119] demoN1 [.startup demoStart] (demoSeen.take 1) :=
    .read (k := 1) h1 rfl (b := ⟨1, demoSeen.take 1⟩) (by decide)
  have h3 : Hist demoCrypto demoStart [112, 119] (sent demoN1) _ (demoSeen.take 1) := .write h2 (by decide)
  have h4 : Hist demoCrypto demoStart [112, 119] demoN2 _ (demoSeen.take 1 ++ (demoSeen.drop 1).take 4) :=
    .read (k := 4) h3 (by decide) (b := ⟨2, demoSeen.drop 1⟩) (by decide)
  exact h4

example : demoN2.state = .complete ∧ demoN2.fatal = none ∧ demoN2.killinfo = some (1, 2) := by decide

example : Hist demoCrypto demoStart [112] (put demoCrypto (sent (init demoStart [112])) ⟨1, [(82, [0, 0, 0, 7])]⟩).1 [.startup demoStart] [(82, [0, 0, 0, 7])] ∧
    IsRequest (82, [0, 0, 0, 7]) 7 [] :=
  ⟨.read (k := 1) (b := ⟨1, [(82, [0, 0, 0, 7])]⟩) (.write .start rfl) rfl (by decide), rfl, by decide⟩

/-- The claim without the restriction is false: after the password the client takes a message of any type for the server's OK,
here a row description (`T`) whose first four bytes are zero. -/
theorem C14_ok_of_any_type : ∃ n wire, Hist demoCrypto demoStart [112] n wire
      [(82, [0, 0, 0, 3]), (84, [0, 0, 0, 0]), (75, [0, 0, 0, 1, 0, 0, 0, 2]), (90, [73])] ∧ n.state = .complete ∧ n.fatal = none := by
  let n1 := (put demoCrypto (sent (init demoStart [112])) ⟨1, [(82, [0, 0, 0, 3])]⟩).1
  have h2 : Hist demoCrypto demoStart [112] n1 [.startup demoStart] [(82, [0, 0, 0, 3])] :=
    .read (k := 1) (.write .start rfl) rfl (b := ⟨1, [(82, [0, 0, 0, 3])]⟩) (by decide)
  have h3 := Hist.write h2 (by decide)
  refine ⟨(put demoCrypto (sent n1) ⟨2, [(84, [0, 0, 0, 0]), (75, [0, 0, 0, 1, 0, 0, 0, 2]), (90, [73])]⟩).1, _,
    .read (k := 3) h3 (by decide) (b := ⟨2, [(84, [0, 0, 0, 0]), (75, [0, 0, 0, 1, 0, 0, 0, 2]), (90, [73])]⟩) (by decide), by decide, by decide⟩

end PG.Props.Negotiation
