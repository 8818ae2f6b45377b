import Verif.Spec.Security
import Verif.Props.Establish
/-!
# C83: secured connections and sockets
-/
namespace PG.Security
open PG PG.Spec.Security PG.Establish

/-- The parameters never change, and a context only has the authorities of the file given. -/
theorem reach_inv {s : Secure} {f : Factory} (h : Reach s f) : f.secure = s ∧ ∀ c, f.context = some c → c.certRequired = true ∧ c.checkHostname = false ∧
    (∀ a ∈ c.authorities, ∃ file d l, s.caCerts = some file ∧ Disk.authorities d file = some l ∧ a ∈ l) ∧ (c.authorities ≠ [] → c.chain = s.certfile.map fun crt => (crt, s.keyfile)) := by
  induction h with
  | new => exact ⟨rfl, fun c hc => by cases hc⟩
  | @used f d p _ ih =>
    obtain ⟨ih1, ih2⟩ := ih
    have key : (securityContext f d).2.secure = s ∧ ∀ c, (securityContext f d).2.context = some c → c.certRequired = true ∧ c.checkHostname = false ∧
        (∀ a ∈ c.authorities, ∃ file d l, s.caCerts = some file ∧ Disk.authorities d file = some l ∧ a ∈ l) ∧ (c.authorities ≠ [] → c.chain = s.certfile.map fun crt => (crt, s.keyfile)) := by
      unfold securityContext
      cases hc : f.context with
      | some c => exact ⟨ih1, fun c' h => ih2 c' (by simpa [hc] using h)⟩
      | none =>
        dsimp only
        rw [ih1]
        have hch : ∀ c, loadChain s d newContext = some c → c.certRequired = true ∧ c.checkHostname = false ∧ c.authorities = [] ∧ (c.chain = s.certfile.map fun crt => (crt, s.keyfile)) := by
          intro c h
          unfold loadChain at h
          cases hcf : s.certfile with
          | none => rw [hcf] at h; cases h; exact ⟨rfl, rfl, rfl, rfl⟩
          | some file =>
            rw [hcf] at h
            dsimp only at h
            split at h
            · cases h; exact ⟨rfl, rfl, rfl, rfl⟩
            · cases h
        cases hl : loadChain s d newContext with
        | none => exact ⟨rfl, fun c h => by cases h; exact ⟨rfl, rfl, (fun a ha => by cases ha), (fun hx => absurd rfl hx)⟩⟩
        | some c =>
          obtain ⟨g1, g2, g3, g4⟩ := hch c hl
          dsimp only
          cases hv : loadVerify s d c with
          | none => exact ⟨rfl, fun c' h => by cases h; exact ⟨g1, g2, (fun a ha => by rw [g3] at ha; cases ha), (fun _ => g4)⟩⟩
          | some c2 =>
            refine ⟨rfl, fun c' h => ?_⟩
            cases h
            unfold loadVerify at hv
            cases hca : s.caCerts with
            | none => rw [hca] at hv; cases hv; exact ⟨g1, g2, (fun a ha => by rw [g3] at ha; cases ha), (fun _ => g4)⟩
            | some file =>
              rw [hca] at hv
              dsimp only at hv
              cases hau : d.authorities file with
              | none => rw [hau] at hv; cases hv
              | some l =>
                rw [hau] at hv
                cases hv
                refine ⟨g1, g2, fun a ha => ⟨file, d, l, rfl, hau, ?_⟩, (fun _ => g4)⟩
                simpa [g3] using ha
    unfold secure
    cases hs : securityContext f d with
    | mk r f' =>
      rw [hs] at key
      cases r <;> exact key

/-- The context `secure` uses is the one the factory has after it. -/
theorem secure_ctx {f : Factory} {d : Disk} {p : Peer} {c : Context} (h : (secure f d p).1 = some c) : (secure f d p).2.context = some c ∧ handshake c p = true := by
  unfold secure at h ⊢
  have hs : ∀ c f', securityContext f d = (some c, f') → f'.context = some c := by
    intro c f' h
    unfold securityContext at h
    cases hc : f.context with
    | some c' => rw [hc] at h; cases h; exact hc
    | none =>
      rw [hc] at h
      dsimp only at h
      split at h
      · cases h
      · split at h
        · cases h
        · cases h; rfl
  cases hsc : securityContext f d with
  | mk r f' =>
    rw [hsc] at h
    cases r with
    | none => cases h
    | some c' =>
      dsimp only at h ⊢
      by_cases hh : handshake c' p = true
      · rw [if_pos hh] at h; cases h; exact ⟨hs c f' hsc, hh⟩
      · rw [if_neg hh] at h; cases h

/-- **C83** Whatever happened before: if a socket was secured, a file of root certificates was given, and the server's certificate was issued by an authority that was in that file; the client certificate
given, if any, is the one used, and a server that wants one got it. -/
theorem C83_verified {s : Secure} {f : Factory} (h : Reach s f) (d : Disk) (p : Peer) (c : Context) (hs : (secure f d p).1 = some c) :
    (∃ file d' l, s.caCerts = some file ∧ Disk.authorities d' file = some l ∧ p.issuer ∈ l) ∧ (c.chain = s.certfile.map fun crt => (crt, s.keyfile)) ∧ (p.wantsClient = true → s.certfile ≠ none) := by
  obtain ⟨hc, hh⟩ := secure_ctx hs
  obtain ⟨h1, h2⟩ := reach_inv (Reach.used d p h)
  obtain ⟨g1, g2, g3, g4⟩ := h2 c hc
  unfold handshake at hh
  rw [g1, g2] at hh
  simp only [Bool.not_false, Bool.not_true, Bool.true_and, Bool.false_or, Bool.and_eq_true, Bool.or_eq_true, Bool.not_eq_true', List.contains_eq_mem, decide_eq_true_eq] at hh
  have hch := g4 (List.ne_nil_of_mem hh.1)
  refine ⟨g3 _ hh.1, hch, fun hw => ?_⟩
  rcases hh.2 with hx | hx
  · rw [hw] at hx; cases hx
  · intro hn
    rw [hch, hn] at hx
    cases hx

/-- The files are read once: what the first attempt read decides all later ones, whatever becomes of the files. -/
theorem C83_read_once {s : Secure} {d0 : Disk} {p0 : Peer} {c : Context} (h0 : (securityContext (Factory.new s) d0).1 = some c) (uses : List (Disk × Peer)) (d : Disk) (p : Peer) :
    (secure (uses.foldl (fun f u => (secure f u.1 u.2).2) (secure (Factory.new s) d0 p0).2) d p).1 = (secure (Factory.new s) d0 p).1 := by
  have h1 : ∀ q : Peer, (secure (Factory.new s) d0 q).2.context = some c ∧ (secure (Factory.new s) d0 q).1 = if handshake c q then some c else none := by
    intro q
    unfold secure
    have hk : ∀ r, securityContext (Factory.new s) d0 = r → r.1 = some c → r.2.context = some c := by
      intro r hr h
      subst hr
      unfold securityContext Factory.new at h ⊢
      dsimp only at h ⊢
      split at h
      · cases h
      · split at h
        · cases h
        · exact h
    have hk' := hk _ rfl h0
    cases hs : securityContext (Factory.new s) d0 with
    | mk r f' =>
      rw [hs] at h0 hk'
      dsimp only at h0 hk'
      subst h0
      exact ⟨hk', rfl⟩
  have key : ∀ (uses : List (Disk × Peer)) (f : Factory), f.context = some c → (uses.foldl (fun f u => (secure f u.1 u.2).2) f).context = some c := by
    intro uses
    induction uses with
    | nil => intro f h; exact h
    | cons u uses ih =>
      intro f h
      refine ih _ ?_
      dsimp only
      unfold secure securityContext
      rw [h]
      exact h
  have h2 := key uses _ (h1 p0).1
  rw [(h1 p).2]
  revert h2
  generalize uses.foldl (fun f u => (secure f u.1 u.2).2) (secure (Factory.new s) d0 p0).2 = f
  intro h2
  unfold secure securityContext
  rw [h2]

/-- The keywords: each file is used for what it is given for; an empty name is no file. -/
theorem C83_keywords (k : Keywords) : let file (x : Option String) (f : String) := x = some f ∧ f ≠ ""
    ∀ f, ((security k).1.keyfile = some f ↔ file k.sslkeyfile f) ∧ ((security k).1.certfile = some f ↔ file k.sslcrtfile f) ∧ ((security k).1.caCerts = some f ↔ file k.sslrootcrtfile f) := by
  have h : ∀ (x : Option String) f, orNone x = some f ↔ x = some f ∧ f ≠ "" := by
    intro x f
    cases x with
    | none => simp [orNone]
    | some y =>
      unfold orNone
      by_cases hy : y = ""
      · subst hy
        simp only [if_true]
        constructor
        · intro h; cases h
        · rintro ⟨h1, h2⟩; cases h1; exact absurd rfl h2
      · dsimp only
        rw [if_neg hy]
        constructor
        · intro h; cases h; exact ⟨rfl, hy⟩
        · intro h; exact h.1
  exact fun f => ⟨h _ f, h _ f, h _ f⟩

example : (security ⟨some "k", some "", some "r", none⟩).1 = ⟨some "k", none, some "r"⟩ := by decide

/-- The other way: with files that can be read, the first attempt of a factory secures the socket if the server's certificate is issued by an authority in the file, and the server wants no client
certificate that is not given. -/
theorem C83_secures (s : Secure) (d : Disk) (p : Peer) (file : String) (l : List Nat) (hf : s.caCerts = some file) (hl : d.authorities file = some l) (hi : p.issuer ∈ l)
    (hc : ∀ crt, s.certfile = some crt → d.chain crt s.keyfile = true) (hw : p.wantsClient = true → s.certfile ≠ none) :
    ∃ c, (secure (Factory.new s) d p).1 = some c ∧ c.chain = s.certfile.map fun crt => (crt, s.keyfile) := by
  cases hcf : s.certfile with
  | none =>
    refine ⟨⟨true, false, none, l⟩, ?_, rfl⟩
    have hw' : p.wantsClient = false := by cases hx : p.wantsClient with
      | false => rfl
      | true => exact absurd hcf (hw hx)
    simp [secure, securityContext, Factory.new, loadChain, hcf, loadVerify, hf, hl, newContext, handshake, hi, hw']
  | some crt =>
    refine ⟨⟨true, false, some (crt, s.keyfile), l⟩, ?_, rfl⟩
    simp [secure, securityContext, Factory.new, loadChain, hcf, hc crt hcf, loadVerify, hf, hl, newContext, handshake, hi]

/-- Without a file of root certificates no socket is ever secured: no authority is trusted, not even the system's. -/
theorem C83_no_root {s : Secure} (hr : s.caCerts = none) {f : Factory} (h : Reach s f) (d : Disk) (p : Peer) : (secure f d p).1 = none := by
  cases hs : (secure f d p).1 with
  | none => rfl
  | some c =>
    obtain ⟨⟨file, _, _, hf, _⟩, _⟩ := C83_verified h d p c hs
    rw [hr] at hf
    cases hf

/-- So a connector without such a file connects to no server that has SSL, in the default mode (or `prefer`): it does not fall back to a connection in clear after the handshake failed. -/
theorem C83_prefer_without_root {s : Secure} (hr : s.caCerts = none) (world : List Wire → World) (hw : Feasible s world) (hssl : ∀ wire, (world wire).sock = .ok ∧ (world wire).reply = .S) (addrs : List Nat) :
    (establish none addrs world).1 = .cannotConnect ∧ ¬ PG.Spec.Establish.SentInClear (establish none addrs world).2 ∧ ¬ PG.Spec.Establish.SentOverTls (establish none addrs world).2 := by
  have hns : ∀ wire, (world wire).secure = false := by
    intro wire
    cases hx : (world wire).secure with
    | false => rfl
    | true =>
      obtain ⟨f, d, p, h1, h2⟩ := hw wire hx
      rw [C83_no_root hr h1] at h2
      cases h2
  rw [PG.Props.Establish.C16_modes, if_pos (Or.inl rfl)]
  have key : ∀ addrs wire, Wire.startup false ∉ wire → Wire.startup true ∉ wire →
      (PG.Spec.Establish.prefer world addrs wire).1 = .cannotConnect ∧ Wire.startup false ∉ (PG.Spec.Establish.prefer world addrs wire).2 ∧ Wire.startup true ∉ (PG.Spec.Establish.prefer world addrs wire).2 := by
    intro addrs
    induction addrs with
    | nil => intro wire h1 h2; exact ⟨rfl, h1, h2⟩
    | cons a rest ih =>
      intro wire h1 h2
      have hcn : connect a (some false) (world wire) = ⟨some (some true), false, true, true, false, [.open a, .sslRequest, .handshake]⟩ := by
        unfold connect
        rw [(hssl wire).1]
        dsimp only
        rw [(hssl wire).2]
        dsimp only
        rw [hns wire]
        rfl
      unfold PG.Spec.Establish.prefer PG.Spec.Establish.attempt
      rw [hcn]
      simp only [Bool.false_eq_true, if_false, if_true, or_true]
      refine ih _ ?_ ?_ <;> simp [h1, h2]
  obtain ⟨k1, k2, k3⟩ := key addrs [] (by simp) (by simp)
  exact ⟨k1, k2, k3⟩

/-- With `require` and no such file there is never a connection. -/
theorem C83_require_without_root {s : Secure} (hr : s.caCerts = none) (world : List Wire → World) (hw : Feasible s world) (addrs : List Nat) (b : Bool) :
    (establish (some "require") addrs world).1 ≠ .connected b := by
  have hns : ∀ wire, (world wire).secure = false := by
    intro wire
    cases hx : (world wire).secure with
    | false => rfl
    | true =>
      obtain ⟨f, d, p, h1, h2⟩ := hw wire hx
      rw [C83_no_root hr h1] at h2
      cases h2
  rw [PG.Props.Establish.C16_modes, if_neg (by decide), if_neg (by decide), if_pos rfl]
  have key : ∀ addrs wire, (PG.Spec.Establish.require world addrs wire).1 ≠ .connected b := by
    intro addrs
    induction addrs with
    | nil => intro wire h; cases h
    | cons a rest ih =>
      intro wire
      have hd : (connect a (some true) (world wire)).done = false := by
        unfold connect
        rw [hns wire]
        cases (world wire).sock <;> cases (world wire).reply <;> rfl
      unfold PG.Spec.Establish.require PG.Spec.Establish.attempt
      dsimp only
      rw [hd]
      split
      · intro h; cases h
      · exact ih _
  exact key addrs []

/-- A factory whose files could not be loaded the first time never secures a socket, even after the files have been repaired; it does not secure one without checking either. -/
theorem C83_broken_forever {s : Secure} {d0 : Disk} {p0 : Peer} (h0 : (securityContext (Factory.new s) d0).1 = none) (uses : List (Disk × Peer)) (d : Disk) (p : Peer) :
    (secure (uses.foldl (fun f u => (secure f u.1 u.2).2) (secure (Factory.new s) d0 p0).2) d p).1 = none := by
  have hctx : ∃ c, (secure (Factory.new s) d0 p0).2.context = some c ∧ c.authorities = [] ∧ c.certRequired = true := by
    unfold secure
    unfold securityContext Factory.new at h0 ⊢
    dsimp only at h0 ⊢
    cases hl : loadChain s d0 newContext with
    | none => exact ⟨newContext, rfl, rfl, rfl⟩
    | some c =>
      rw [hl] at h0
      dsimp only at h0 ⊢
      have hc : c.authorities = [] ∧ c.certRequired = true := by
        unfold loadChain at hl
        split at hl
        · cases hl; exact ⟨rfl, rfl⟩
        · split at hl
          · cases hl; exact ⟨rfl, rfl⟩
          · cases hl
      cases hv : loadVerify s d0 c with
      | none => exact ⟨c, rfl, hc⟩
      | some c' => rw [hv] at h0; cases h0
  have key : ∀ (uses : List (Disk × Peer)) (f : Factory), (∃ c, f.context = some c ∧ c.authorities = [] ∧ c.certRequired = true) →
      ∃ c, (uses.foldl (fun f u => (secure f u.1 u.2).2) f).context = some c ∧ c.authorities = [] ∧ c.certRequired = true := by
    intro uses
    induction uses with
    | nil => intro f h; exact h
    | cons u uses ih =>
      intro f h
      obtain ⟨c, h1, h2⟩ := h
      refine ih _ ⟨c, ?_, h2⟩
      dsimp only
      unfold secure securityContext
      rw [h1]
      exact h1
  obtain ⟨c, h1, h2, h3⟩ := key uses _ hctx
  revert h1
  generalize uses.foldl (fun f u => (secure f u.1 u.2).2) (secure (Factory.new s) d0 p0).2 = f
  intro h1
  unfold secure securityContext
  rw [h1]
  dsimp only
  rw [if_neg]
  unfold handshake
  rw [h2, h3]
  simp

/-- The name of the server and revocation are not checked: what else it is, a server with a certificate of the authority is as good as the one asked for. A revocation list only leads to a warning. -/
theorem C83_name_unchecked (f : Factory) (d : Disk) (p q : Peer) (hi : p.issuer = q.issuer) (hw : p.wantsClient = q.wantsClient) : secure f d p = secure f d q := by
  unfold secure handshake
  rw [hi, hw]

theorem C83_revocation (k : Keywords) (crl : Option String) : (security { k with sslrootcrlfile := crl }).1 = (security k).1 ∧ ((security k).2 = true ↔ ∃ f, k.sslrootcrlfile = some f ∧ f ≠ "") := by
  refine ⟨rfl, ?_⟩
  unfold security orNone
  cases k.sslrootcrlfile with
  | none => simp
  | some f => by_cases hf : f = "" <;> simp [hf]

/-- A key file without a certificate file is ignored. -/
theorem C83_key_alone (key key' : Option String) (ca : Option String) (d : Disk) (p : Peer) :
    (secure (Factory.new ⟨key, none, ca⟩) d p).1 = (secure (Factory.new ⟨key', none, ca⟩) d p).1 := by
  unfold secure securityContext Factory.new loadChain loadVerify
  dsimp only
  cases ca with
  | none => rfl
  | some f => dsimp only; cases d.authorities f <;> rfl

/-- The disk of the examples: `root.crt` has authority 7; `client.crt` can be loaded. -/
def disk : Disk := ⟨fun c _ => c = "client.crt", fun f => if f = "root.crt" then some [7] else none⟩

/-- `C83_verified`, `C83_secures`, `C83_name_unchecked` apply. -/
example : Reach (security ⟨none, none, some "root.crt", none⟩).1 (Factory.new (security ⟨none, none, some "root.crt", none⟩).1) ∧
    (secure (Factory.new (security ⟨none, none, some "root.crt", none⟩).1) disk ⟨7, ["db.example.org"], false, false⟩).1 = some ⟨true, false, none, [7]⟩ ∧
    (secure (Factory.new (security ⟨none, none, some "root.crt", none⟩).1) disk ⟨7, ["evil.example.org"], true, false⟩).1 = some ⟨true, false, none, [7]⟩ ∧
    (secure (Factory.new (security ⟨none, none, some "root.crt", none⟩).1) disk ⟨8, ["db.example.org"], false, false⟩).1 = none ∧
    (secure (Factory.new (security ⟨some "client.key", some "client.crt", some "root.crt", none⟩).1) disk ⟨7, [], false, true⟩).1 = some ⟨true, false, some ("client.crt", some "client.key"), [7]⟩ :=
  ⟨.new, by decide, by decide, by decide, by decide⟩

/-- `C83_prefer_without_root` applies. -/
example : (security ⟨none, none, none, none⟩).1.caCerts = none ∧ Feasible (security ⟨none, none, none, none⟩).1 (fun _ => ⟨.ok, .S, false, .ok⟩) ∧
    establish none [1] (fun _ => ⟨.ok, .S, false, .ok⟩) = (.cannotConnect, [.open 1, .sslRequest, .handshake, .close]) := ⟨by decide, (fun _ h => by cases h), by decide⟩

/-- `C83_broken_forever` applies: the certificate file is not there at first. -/
example : (securityContext (Factory.new ⟨none, some "client.crt", some "root.crt"⟩) ⟨fun _ _ => false, disk.authorities⟩).1 = none ∧
    (secure (Factory.new ⟨none, some "client.crt", some "root.crt"⟩) disk ⟨7, [], false, false⟩).1 ≠ none ∧
    (secure (secure (Factory.new ⟨none, some "client.crt", some "root.crt"⟩) ⟨fun _ _ => false, disk.authorities⟩ ⟨7, [], false, false⟩).2 disk ⟨7, [], false, false⟩).1 = none := by
  refine ⟨?_, ?_, ?_⟩ <;> decide

/-! ## Sockets -/

/-- **C83** A socket that is given out is connected and blocking (no timeout); the timeout given was set while connecting. If making it raises an `Exception`, the socket, if it was created, is closed. -/
theorem C83_socket_partial (timeout : Option Int) (valid : Bool) (ends : Op → Ends) :
    ((makeSocket timeout valid ends).2 = .ok ↔ valid = true ∧ ends .create = .ok ∧ ends (.settimeout timeout) = .ok ∧ ends .connect = .ok ∧ ends (.settimeout none) = .ok) ∧
    ((makeSocket timeout valid ends).2 = .ok → (makeSocket timeout valid ends).1 = [.create, .settimeout timeout, .connect, .settimeout none]) ∧
    ((makeSocket timeout valid ends).2 = .exception → ends .create = .ok → Closed (makeSocket timeout valid ends).1) ∧
    (∀ o ∈ (makeSocket timeout valid ends).1.dropLast, o ≠ .close) := by
  unfold makeSocket
  cases valid with
  | false =>
    cases ends .create <;> simp [Closed]
  | true =>
    simp only [if_true, steps]
    cases ends .create with
    | exception => simp
    | interrupt => simp
    | ok =>
      cases ends (.settimeout timeout) with
      | exception => simp [Closed]
      | interrupt => simp
      | ok =>
        cases ends .connect with
        | exception => simp [Closed]
        | interrupt => simp
        | ok =>
          cases ends (.settimeout none) with
          | exception => simp [Closed]
          | interrupt => simp
          | ok => simp

/-- What is missing: an interrupt (`KeyboardInterrupt`) while connecting leaves the socket open. -/
theorem C83_socket_interrupted : ∃ ends, (makeSocket (some 5) true ends).2 = .interrupt ∧ ¬ Closed (makeSocket (some 5) true ends).1 ∧ Op.close ∉ (makeSocket (some 5) true ends).1 :=
  ⟨fun o => if o = .connect then .interrupt else .ok, by decide, by unfold Closed; decide, by decide⟩

example : makeSocket (some 5) true (fun o => if o = .connect then .exception else .ok) = ([.create, .settimeout (some 5), .connect, .close], .exception) := by decide

/-- `find_available_port` looks at `localhost`, whatever interface is asked for. -/
theorem C83_port_interface (a b : String) : bindName a = bindName b ∧ bindName a = "localhost" := ⟨rfl, rfl⟩

end PG.Security
