import Verif.Spec.Establish
/-!
# C16: the sslmode policy
-/
namespace PG.Props.Establish
open PG PG.Establish PG.Spec.Establish PG.Itertools

/-- Interlacing two lists made from one alternates. -/
theorem interlace_pair {α β : Type} (f g : α → β) : ∀ (l : List α) (n : Nat), 2 * l.length < n →
    interlaceLoop n [l.map f, l.map g] = l.flatMap (fun a => [f a, g a])
  | [], n, h => by
    obtain ⟨n, rfl⟩ := Nat.exists_eq_succ_of_ne_zero (n := n) (by omega)
    rfl
  | a :: l, n, h => by
    obtain ⟨n, rfl⟩ : ∃ m, n = m + 2 := ⟨n - 2, by simp at h; omega⟩
    show f a :: g a :: interlaceLoop n [l.map f, l.map g] = _
    rw [interlace_pair f g l n (by simp at h; omega)]
    rfl

theorem interlace_two {α β : Type} (f g : α → β) (l : List α) : interlace [l.map f, l.map g] = l.flatMap (fun a => [f a, g a]) :=
  interlace_pair f g l _ (by simp; omega)

/-- The modes, by name. -/
theorem establish_mode (m : Option String) (addrs : List Nat) (world : List Wire → World) :
    establish m addrs world =
      if m = none ∨ m = some "" ∨ m = some "prefer" then prefer world addrs []
      else if m = some "allow" then allow world addrs []
      else if m = some "require" then require world addrs []
      else if m = some "disable" then disable world addrs []
      else (.valueError, []) := by
  have hprefer : ∀ addrs wire, tryAll "prefer" world (addrs.flatMap (fun a => [(some false, a), (none, a)])) false wire = prefer world addrs wire := by
    intro addrs
    induction addrs with
    | nil => intro wire; rfl
    | cons a rest ih =>
      intro wire
      show tryAll "prefer" world ((some false, a) :: (none, a) :: rest.flatMap _) false wire = _
      unfold tryAll prefer attempt
      rw [if_neg (by simp)]
      dsimp only
      generalize connect a (some false) (world wire) = r
      by_cases h1 : r.raised = true
      · rw [if_pos h1, if_pos h1]
      · rw [if_neg h1, if_neg h1]
        by_cases h2 : r.done = true
        · rw [if_pos h2, if_pos h2]
        · rw [if_neg h2, if_neg h2]
          generalize (if r.socket = true then wire ++ r.wire ++ [Wire.close] else wire ++ r.wire) = w2
          unfold canSkip
          by_cases h3 : r.didssl = some (some false)
          · rw [if_pos ⟨rfl, rfl, h3⟩, if_pos (.inl h3)]
            unfold tryAll
            rw [if_pos rfl]
            exact ih w2
          · rw [if_neg (fun h => h3 h.2.2)]
            by_cases h4 : r.exception = true
            · rw [if_pos h4, if_pos ⟨rfl, rfl⟩, if_pos (.inr h4)]
              unfold tryAll
              rw [if_pos rfl]
              exact ih w2
            · rw [if_neg h4, if_neg (fun h => h.elim h3 h4)]
              unfold tryAll
              rw [if_neg (by simp)]
              dsimp only
              generalize connect a none (world w2) = r2
              by_cases h5 : r2.raised = true
              · rw [if_pos h5, if_pos h5]
              · rw [if_neg h5, if_neg h5]
                by_cases h6 : r2.done = true
                · rw [if_pos h6, if_pos h6]
                · rw [if_neg h6, if_neg h6]
                  have hs : canSkip "prefer" none r2 = false := by unfold canSkip; simp
                  rw [hs]
                  exact ih _
  have hallow : ∀ addrs wire, tryAll "allow" world (addrs.flatMap (fun a => [(none, a), (some true, a)])) false wire = allow world addrs wire := by
    intro addrs
    induction addrs with
    | nil => intro wire; rfl
    | cons a rest ih =>
      intro wire
      show tryAll "allow" world ((none, a) :: (some true, a) :: rest.flatMap _) false wire = _
      unfold tryAll allow attempt
      rw [if_neg (by simp)]
      dsimp only
      generalize connect a none (world wire) = r
      by_cases h1 : r.raised = true
      · rw [if_pos h1, if_pos h1]
      · rw [if_neg h1, if_neg h1]
        by_cases h2 : r.done = true
        · rw [if_pos h2, if_pos h2]
        · rw [if_neg h2, if_neg h2]
          generalize (if r.socket = true then wire ++ r.wire ++ [Wire.close] else wire ++ r.wire) = w2
          unfold canSkip
          rw [if_neg (fun h => by simp at h)]
          by_cases h4 : r.exception = true
          · rw [if_pos h4, if_neg (fun h => by simp at h), if_pos ⟨rfl, rfl⟩, if_pos h4]
            unfold tryAll
            rw [if_pos rfl]
            exact ih w2
          · rw [if_neg h4, if_neg h4]
            unfold tryAll
            rw [if_neg (by simp)]
            dsimp only
            generalize connect a (some true) (world w2) = r2
            by_cases h5 : r2.raised = true
            · rw [if_pos h5, if_pos h5]
            · rw [if_neg h5, if_neg h5]
              by_cases h6 : r2.done = true
              · rw [if_pos h6, if_pos h6]
              · rw [if_neg h6, if_neg h6]
                have hs : canSkip "allow" (some true) r2 = false := by unfold canSkip; simp
                rw [hs]
                exact ih _
  have hrequire : ∀ addrs wire, tryAll "require" world (addrs.map (some true, ·)) false wire = require world addrs wire := by
    intro addrs
    induction addrs with
    | nil => intro wire; rfl
    | cons a rest ih =>
      intro wire
      show tryAll "require" world ((some true, a) :: rest.map _) false wire = _
      unfold tryAll require attempt
      rw [if_neg (by simp)]
      dsimp only
      have hs : ∀ r, canSkip "require" (some true) r = false := by intro r; unfold canSkip; simp
      rw [hs, ih]
  have hdisable : ∀ addrs wire, tryAll "disable" world (addrs.map (none, ·)) false wire = disable world addrs wire := by
    intro addrs
    induction addrs with
    | nil => intro wire; rfl
    | cons a rest ih =>
      intro wire
      show tryAll "disable" world ((none, a) :: rest.map _) false wire = _
      unfold tryAll disable attempt
      rw [if_neg (by simp)]
      dsimp only
      have hs : ∀ r, canSkip "disable" none r = false := by intro r; unfold canSkip; simp
      rw [hs, ih]
  have hp : attempts "prefer" addrs = some (addrs.flatMap (fun a => [(some false, a), (none, a)])) := by
    unfold attempts
    rw [if_neg (by decide), if_pos rfl, interlace_two]
  have ha : attempts "allow" addrs = some (addrs.flatMap (fun a => [(none, a), (some true, a)])) := by
    unfold attempts
    rw [if_pos rfl, interlace_two]
  have hr : attempts "require" addrs = some (addrs.map (some true, ·)) := by
    unfold attempts
    rw [if_neg (by decide), if_neg (by decide), if_pos rfl]
  have hd : attempts "disable" addrs = some (addrs.map (none, ·)) := by
    unfold attempts
    rw [if_neg (by decide), if_neg (by decide), if_neg (by decide), if_pos rfl]
  unfold establish
  cases m with
  | none =>
    rw [if_pos (.inl rfl)]
    dsimp only
    rw [hp]
    exact hprefer addrs []
  | some m =>
    dsimp only
    by_cases h0 : m = ""
    · subst h0
      rw [if_pos rfl, if_pos (.inr (.inl rfl)), hp]
      exact hprefer addrs []
    · rw [if_neg h0]
      by_cases h1 : m = "prefer"
      · subst h1
        rw [if_pos (.inr (.inr rfl)), hp]
        exact hprefer addrs []
      · rw [if_neg (by simp [h0, h1])]
        by_cases h2 : m = "allow"
        · subst h2
          rw [if_pos rfl, ha]
          exact hallow addrs []
        · rw [if_neg (by simp [h2])]
          by_cases h3 : m = "require"
          · subst h3
            rw [if_pos rfl, hr]
            exact hrequire addrs []
          · rw [if_neg (by simp [h3])]
            by_cases h4 : m = "disable"
            · subst h4
              rw [if_pos rfl, hd]
              exact hdisable addrs []
            · rw [if_neg (by simp [h4])]
              unfold attempts
              rw [if_neg h2, if_neg h1, if_neg h3, if_neg h4]

/-- C16: what each mode does, for every list of addresses and every behaviour of the network and the servers: the attempts in
the documented order (`Spec.Establish`), and no mode but these. -/
theorem C16_modes (m : Option String) (addrs : List Nat) (world : List Wire → World) :
    establish m addrs world =
      if m = none ∨ m = some "" ∨ m = some "prefer" then prefer world addrs []
      else if m = some "allow" then allow world addrs []
      else if m = some "require" then require world addrs []
      else if m = some "disable" then disable world addrs []
      else (.valueError, []) := establish_mode m addrs world

/-- C16: an unknown mode is refused before anything is done. -/
theorem C16_unknown_mode (m : String) (addrs : List Nat) (world : List Wire → World)
    (h : m ∉ ["", "prefer", "allow", "require", "disable"]) : establish (some m) addrs world = (.valueError, []) := by
  simp only [List.mem_cons, List.not_mem_nil, or_false, not_or] at h
  rw [C16_modes, if_neg (by simp [h.1, h.2.1]), if_neg (by simp [h.2.2.1]), if_neg (by simp [h.2.2.2.1]), if_neg (by simp [h.2.2.2.2])]

/-- One attempt with SSL required sends nothing in clear. -/
theorem connect_require (a : Nat) (w : World) : Wire.startup false ∉ (connect a (some true) w).wire ∧
    ((connect a (some true) w).done = true → (connect a (some true) w).didssl = some (some true)) := by
  unfold connect negotiate
  cases w.sock <;> cases w.reply <;> cases w.secure <;> simp

/-- C16: with `require` the startup message (and with it the user name and everything after) is never sent in clear, and a
connection is secured by SSL. -/
theorem C16_require (addrs : List Nat) (world : List Wire → World) :
    ¬ SentInClear (establish (some "require") addrs world).2 ∧
    (establish (some "require") addrs world).1 ≠ .connected false := by
  have key : ∀ addrs wire, Wire.startup false ∉ wire →
      Wire.startup false ∉ (require world addrs wire).2 ∧ (require world addrs wire).1 ≠ .connected false := by
    intro addrs
    induction addrs with
    | nil => intro wire hw; exact ⟨hw, by simp [require]⟩
    | cons a rest ih =>
      intro wire hw
      unfold require attempt
      dsimp only
      obtain ⟨c1, c2⟩ := connect_require a (world wire)
      generalize connect a (some true) (world wire) = r at c1 c2
      have hw1 : Wire.startup false ∉ wire ++ r.wire := by
        intro h; rcases List.mem_append.1 h with h | h
        · exact hw h
        · exact c1 h
      split
      · exact ⟨hw1, by simp⟩
      · split
        · rename_i hd
          exact ⟨hw1, by simp [c2 hd]⟩
        · refine ih _ ?_
          split
          · intro h
            rcases List.mem_append.1 h with h | h
            · exact hw1 h
            · simp at h
          · exact hw1
  have := key addrs [] (by simp)
  rw [C16_modes, if_neg (by simp), if_neg (by simp), if_pos rfl]
  exact this

/-- C16: with `disable` no SSL request is sent and no handshake made. -/
theorem C16_disable (addrs : List Nat) (world : List Wire → World) :
    Wire.sslRequest ∉ (establish (some "disable") addrs world).2 ∧ Wire.handshake ∉ (establish (some "disable") addrs world).2 ∧
    ¬ SentOverTls (establish (some "disable") addrs world).2 ∧
    (establish (some "disable") addrs world).1 ≠ .connected true := by
  have hc : ∀ a w, Wire.sslRequest ∉ (connect a none w).wire ∧ Wire.handshake ∉ (connect a none w).wire ∧
      Wire.startup true ∉ (connect a none w).wire ∧ (connect a none w).didssl = none := by
    intro a w
    unfold connect negotiate
    cases w.sock <;> simp
  have key : ∀ addrs wire, Wire.sslRequest ∉ wire → Wire.handshake ∉ wire → Wire.startup true ∉ wire →
      Wire.sslRequest ∉ (disable world addrs wire).2 ∧ Wire.handshake ∉ (disable world addrs wire).2 ∧
      Wire.startup true ∉ (disable world addrs wire).2 ∧ (disable world addrs wire).1 ≠ .connected true := by
    intro addrs
    induction addrs with
    | nil => intro wire h1 h2 h3; exact ⟨h1, h2, h3, by simp [disable]⟩
    | cons a rest ih =>
      intro wire h1 h2 h3
      unfold disable attempt
      dsimp only
      obtain ⟨c1, c2, c3, c4⟩ := hc a (world wire)
      generalize connect a none (world wire) = r at c1 c2 c3 c4
      split
      · exact ⟨by simp [h1, c1], by simp [h2, c2], by simp [h3, c3], by simp⟩
      · split
        · exact ⟨by simp [h1, c1], by simp [h2, c2], by simp [h3, c3], by simp [c4]⟩
        · refine ih _ ?_ ?_ ?_ <;> split <;> simp [h1, h2, h3, c1, c2, c3]
  have := key addrs [] (by simp) (by simp) (by simp)
  rw [C16_modes, if_neg (by simp), if_neg (by simp), if_neg (by simp), if_pos rfl]
  exact this

/-- C16: in every mode, the connection says it is secured exactly when its startup message went over TLS. -/
theorem C16_security_is_true (m : Option String) (addrs : List Nat) (world : List Wire → World) (b : Bool)
    (h : (establish m addrs world).1 = .connected b) : (establish m addrs world).2.getLast? = some (.startup b) := by
  have hc : ∀ a ssl w, (connect a ssl w).done = true → (connect a ssl w).raised = false →
      (connect a ssl w).wire.getLast? = some (.startup (decide ((connect a ssl w).didssl = some (some true)))) := by
    intro a ssl w
    unfold connect negotiate
    cases w.sock <;> cases ssl with
    | none => simp
    | some r => cases r <;> cases w.reply <;> cases w.secure <;> simp
  have hatt : ∀ ssl a wire next, (∀ r w, ∀ b, (next r w : Result × List Wire).1 = .connected b → (next r w).2.getLast? = some (.startup b)) →
      ∀ b, (attempt ssl a world wire next).1 = .connected b → (attempt ssl a world wire next).2.getLast? = some (.startup b) := by
    intro ssl a wire next hn b hb
    unfold attempt at hb ⊢
    dsimp only at hb ⊢
    have hc' := hc a ssl (world wire)
    generalize connect a ssl (world wire) = r at hc' hb ⊢
    split at hb
    · cases hb
    · rename_i h1
      rw [if_neg h1]
      split at hb
      · rename_i h2
        rw [if_pos h2]
        cases hb
        dsimp only
        have hl := hc' h2 (by simpa using h1)
        rw [List.getLast?_append, hl]
        rfl
      · rename_i h2
        rw [if_neg h2]
        exact hn _ _ b hb
  rw [C16_modes] at h ⊢
  revert h
  split
  · have : ∀ addrs wire b, (prefer world addrs wire).1 = .connected b → (prefer world addrs wire).2.getLast? = some (.startup b) := by
      intro addrs
      induction addrs with
      | nil => intro wire b h; cases h
      | cons a rest ih =>
        intro wire b h
        unfold prefer at h ⊢
        refine hatt _ _ _ _ ?_ b h
        intro r w b hb
        split at hb
        · rename_i hc; rw [if_pos hc]; exact ih _ _ hb
        · rename_i hc; rw [if_neg hc]
          exact hatt _ _ _ _ (fun _ w b hb => ih _ _ hb) b hb
    exact this addrs [] b
  · split
    · have : ∀ addrs wire b, (allow world addrs wire).1 = .connected b → (allow world addrs wire).2.getLast? = some (.startup b) := by
        intro addrs
        induction addrs with
        | nil => intro wire b h; cases h
        | cons a rest ih =>
          intro wire b h
          unfold allow at h ⊢
          refine hatt _ _ _ _ ?_ b h
          intro r w b hb
          split at hb
          · rename_i hc; rw [if_pos hc]; exact ih _ _ hb
          · rename_i hc; rw [if_neg hc]
            exact hatt _ _ _ _ (fun _ w b hb => ih _ _ hb) b hb
      exact this addrs [] b
    · split
      · have : ∀ addrs wire b, (require world addrs wire).1 = .connected b → (require world addrs wire).2.getLast? = some (.startup b) := by
          intro addrs
          induction addrs with
          | nil => intro wire b h; cases h
          | cons a rest ih => intro wire b h; unfold require at h ⊢; exact hatt _ _ _ _ (fun _ w b hb => ih _ _ hb) b h
        exact this addrs [] b
      · split
        · have : ∀ addrs wire b, (disable world addrs wire).1 = .connected b → (disable world addrs wire).2.getLast? = some (.startup b) := by
            intro addrs
            induction addrs with
            | nil => intro wire b h; cases h
            | cons a rest ih => intro wire b h; unfold disable at h ⊢; exact hatt _ _ _ _ (fun _ w b hb => ih _ _ hb) b h
          exact this addrs [] b
        · intro h; cases h

/-- With `prefer`, a failed TLS handshake does not fall back to a connection in clear (the attempt recorded an exception). -/
theorem C16_prefer_no_downgrade_after_handshake (a : Nat) :
    establish (some "prefer") [a] (fun _ => ⟨.ok, .S, false, .ok⟩) = (.cannotConnect, [.open a, .sslRequest, .handshake, .close]) := by
  rw [C16_modes, if_pos (by simp)]
  simp [prefer, attempt, connect]

/-- Non-vacuity: a server without SSL refuses the credentials given over the preferred attempt, the second address has SSL. -/
example : establish none [1, 2] (fun w => if w = [] then ⟨.ok, .N, true, .failed⟩ else ⟨.ok, .S, true, .ok⟩) =
    (.connected true, [.open 1, .sslRequest, .startup false, .close, .open 2, .sslRequest, .handshake, .startup true]) := by decide

example : establish (some "allow") [1] (fun w => if w = [] then ⟨.ok, .N, true, .failed⟩ else ⟨.ok, .S, true, .ok⟩) =
    (.connected true, [.open 1, .startup false, .close, .open 1, .sslRequest, .handshake, .startup true]) := by decide

end PG.Props.Establish
