import Verif.Proofs.Transfer4
/-!
# C74: a transfer from a `COPY ... TO STDOUT` to any number of `COPY ... FROM STDIN`

`recvs` are the pieces in which the source's answer arrives; `rows` are the rows in it and `e` is whether there is an error in it.  The connections of the destinations have any history, their
sockets behave in any way.
-/
namespace PG.Props.Transfer
open PG PG.Element3 PG.Client3 PG.Lifecycle PG.CopyReceiver PG.Transfer PG.Spec PG.Spec.Copy PG.Spec.CopyTo PG.Spec.Client PG.Spec.Lifecycle PG.Spec.CopyLoad PG.Spec.Transfer
open PG.Props.Lifecycle PG.Props.Status PG.Props.CopyLoad PG.Props.CopyReceiver PG.Props.CopyTo

variable {name statement : Bytes} {af : List Bytes} {args : List (Option Bytes)} {rf : List Bytes} {portal : Bytes} {max : Int}
variable {recvs : List Bytes} {reply : List (UInt8 × Bytes)} {rows : List Bytes} {e : Bool}

theorem ran (hy : Says .bind reply rows e) (ha : Arrives recvs reply) (hr : ∀ row ∈ rows, Small row) {p : CopyTo.SP}
    (hp : CopyTo.enter (Props.CopyTo.commands name statement af args rf portal max) recvs = .ok (.fine, p)) {dests : List Dest} (hd : ∀ d ∈ dests, Reached d.db)
    {fuel : Nat} {m : Mgr} {o : Transfer.Outcome} (h : run fuel p dests = (m, o)) : Ran rows e dests m o := by
  obtain ⟨r, p0, h1, _, t, h3⟩ := start (name := name) (statement := statement) (af := af) (args := args) (rf := rf) (portal := portal) (max := max) hy ha
  rw [h1] at hp
  injection hp with hp
  injection hp with _ hp
  subst hp
  exact run_ran (cmds_commands ..) hr hd h3 h

/-- **C74 (a transfer that returns is complete).** When `run` returns, there was no error in the source's answer, and every destination was sent all its rows,
in order and unchanged, and then CopyDone, and has confirmed it; the totals are those of the rows; the source's connection is free. -/
theorem C74_transferred (hy : Says .bind reply rows e) (ha : Arrives recvs reply) (hr : ∀ row ∈ rows, Small row) {p : CopyTo.SP}
    (hp : CopyTo.enter (Props.CopyTo.commands name statement af args rf portal max) recvs = .ok (.fine, p)) {dests : List Dest} (hd : ∀ d ∈ dests, Reached d.db)
    {fuel : Nat} {m : Mgr} (h : run fuel p dests = (m, .done)) :
    e = false ∧ m.slots.length = dests.length ∧
    (∀ (i : Nat) (d : Dest) (s : Slot), dests[i]? = some d → m.slots[i]? = some s →
      s.left = some .ok ∧ ∃ pre, Before d.db pre ∧ wire s.rcv.db = pre ++ upload d.stmt rows ++ frames [copyDone, syncMsg]) ∧
    m.prod.prod.totalMessages = rows.length ∧ m.prod.prod.totalBytes = (copyFrames rows).length ∧ Clean m.prod := by
  have hran := ran hy ha hr hp hd h
  obtain ⟨a, b, c, d⟩ := hran.done rfl
  exact ⟨a, hran.fate.length, fun i x y hx hy => d.at hx hy, b.messages, b.bytes, clean_of c⟩

/-- **C74 (no destination commits anything but all rows).** However `run` ends: a destination whose COPY was started has been sent either a beginning of the rows
followed by CopyFail, or, if there was no error in the source's answer, all rows followed by CopyDone (or a beginning of that, if leaving it was not completed).  Unless a failure of
its transaction was unreported when the COPY started. -/
theorem C74_sound (hy : Says .bind reply rows e) (ha : Arrives recvs reply) (hr : ∀ row ∈ rows, Small row) {p : CopyTo.SP}
    (hp : CopyTo.enter (Props.CopyTo.commands name statement af args rf portal max) recvs = .ok (.fine, p)) {dests : List Dest} (hd : ∀ d ∈ dests, Reached d.db)
    {fuel : Nat} {m : Mgr} {o : Transfer.Outcome} (h : run fuel p dests = (m, o)) :
    m.slots.length = dests.length ∧ ∀ (i : Nat) (d : Dest) (s : Slot), dests[i]? = some d → m.slots[i]? = some s →
      (s.rcv.db = d.db ∨ ((enter d.fin d.fuel d.stmt { db := d.db }).2 ≠ .ok ∧ s.rcv.db = (enter d.fin d.fuel d.stmt { db := d.db }).1.db)) ∨
      ∃ r1, enter d.fin d.fuel d.stmt { db := d.db } = (r1, .ok) ∧ (Unreported r1.db ∨ Sound rows e d.db d.stmt s.rcv.db s.left) := by
  have hran := ran hy ha hr hp hd h
  exact ⟨hran.fate.length, fun i x y hx hy => hran.fate.at hx hy⟩

/-- **C74 (an error of the source reaches nobody as success).** When there is an error in the source's answer, `run` raises, from inside of the block (or it never ends, or is
interrupted): no destination is told that the data is complete. -/
theorem C74_source_error (hy : Says .bind reply rows true) (ha : Arrives recvs reply) (hr : ∀ row ∈ rows, Small row) {p : CopyTo.SP}
    (hp : CopyTo.enter (Props.CopyTo.commands name statement af args rf portal max) recvs = .ok (.fine, p)) {dests : List Dest} (hd : ∀ d ∈ dests, Reached d.db) (hne : dests ≠ [])
    {fuel : Nat} {m : Mgr} {o : Transfer.Outcome} (h : run fuel p dests = (m, o)) :
    o = .failed true ∨ o = .blocked ∨ o = .interrupted := by
  have hran := ran hy ha hr hp hd h
  cases o with
  | done => obtain ⟨h, _⟩ := hran.done rfl; cases h
  | failed b =>
    cases b with
    | true => exact .inl rfl
    | false => exact absurd rfl (hran.error rfl hne)
  | blocked => exact .inr (.inl rfl)
  | interrupted => exact .inr (.inr rfl)

/-- **C74 (a failed transfer is cleaned up).** When `run` raises `CopyFail`, everything the source sent has been read and its connection is free; and every receiver that had not
been dropped has been left. -/
theorem C74_cleaned (hy : Says .bind reply rows e) (ha : Arrives recvs reply) (hr : ∀ row ∈ rows, Small row) {p : CopyTo.SP}
    (hp : CopyTo.enter (Props.CopyTo.commands name statement af args rf portal max) recvs = .ok (.fine, p)) {dests : List Dest} (hd : ∀ d ∈ dests, Reached d.db)
    {fuel : Nat} {m : Mgr} {b : Bool} (h : run fuel p dests = (m, .failed b)) :
    Clean m.prod ∧ ∀ s ∈ m.slots, s.active = true → s.left ≠ none := by
  obtain ⟨k1, k2⟩ := (ran hy ha hr hp hd h).failed b rfl
  exact ⟨clean_of k1, k2⟩

/-! ## The hypotheses are met -/

/-- The source: two rows, a byte at a time. -/
def source : Option CopyTo.SP := match CopyTo.enter cmds0 (bytewise (frames twoRows)) with | .ok (.fine, p) => some p | _ => none
/-- The source: a row, and an error. -/
def failing : Option CopyTo.SP := match CopyTo.enter cmds0 (bytewise (frames oneError)) with | .ok (.fine, p) => some p | _ => none
/-- A destination with this socket. -/
def to (db : Db) : Dest := { db := db, fuel := 20, stmt := [115] }
/-- How the run ends, what is on the wires, how the receivers were left. -/
def view (p : Option CopyTo.SP) (ds : List Dest) : Option (Transfer.Outcome × List (Bytes × Option Lifecycle.Outcome)) :=
  p.map fun p => ((run 99 p ds).2, (run 99 p ds).1.slots.map fun s => (wire s.rcv.db, s.left))

theorem reached_takes (last : RecvEv) : Reached (takes last) := ⟨_, _, _, [], rfl⟩

/-- `C74_transferred`, `C74_sound`: two destinations. -/
example : view source [to (takes copied), to (takes copied)] =
    some (.done, List.replicate 2 (upload [115] [[49, 10], [50, 10]] ++ frames [copyDone, syncMsg], some .ok)) ∧
    ∀ d ∈ [to (takes copied), to (takes copied)], Reached d.db := by
  refine ⟨by decide +kernel, fun d hd => ?_⟩
  rcases List.mem_cons.1 hd with rfl | hd
  · exact reached_takes _
  · rw [List.mem_singleton.1 hd]; exact reached_takes _

/-- `C74_source_error`, `C74_cleaned`: the source fails. -/
example : view failing [to (takes refused), to (takes refused)] =
    some (.failed true, List.replicate 2 (upload [115] [[49, 10]] ++ frames [copyFail, syncMsg], some (.dbError false (some (.server [([83], some [69, 82, 82, 79, 82])]))))) := by decide +kernel

/-- `C74_sound`, `C74_cleaned`: the socket of the second destination raises (it is dropped), the first one is given up. -/
example : (view source [to (takes refused), to breaks]).map (fun r => (r.1, r.2.map (·.2.isSome))) = some (.failed true, [true, false]) := by decide +kernel

/-! ## Findings -/

/-- That a transfer that raises has committed nowhere. -/
def Atomic : Prop := ∀ (recvs : List Bytes) (reply : List (UInt8 × Bytes)) (rows : List Bytes) (e : Bool) (p : CopyTo.SP) (dests : List Dest) (fuel : Nat) (m : Mgr) (b : Bool),
  Says .bind reply rows e → Arrives recvs reply → (∀ row ∈ rows, Small row) → CopyTo.enter cmds0 recvs = .ok (.fine, p) → (∀ d ∈ dests, Reached d.db) → run fuel p dests = (m, .failed b) →
  ∀ s ∈ m.slots, ∀ pre stmt, wire s.rcv.db ≠ pre ++ upload stmt rows ++ frames [copyDone, syncMsg]

theorem twoRows_arrives : Arrives (bytewise (frames twoRows)) twoRows := by
  refine ⟨fun d hd => ?_, by decide +kernel, fun m hm => ?_⟩
  · obtain ⟨x, _, rfl⟩ := List.mem_map.1 hd; simp
  · simp only [twoRows, List.mem_cons, List.not_mem_nil, or_false] at hm
    rcases hm with rfl | rfl | rfl | rfl | rfl | rfl | rfl | rfl <;> (unfold Fits; decide)

/-- **C74 (a finding: a transfer is not atomic).** When one destination refuses the data at the end, `CopyFail` is raised although another one has committed. -/
theorem C74_not_atomic : ¬ Atomic := by
  intro h
  have hp : ∃ p, source = some p := Option.isSome_iff_exists.1 (by decide +kernel)
  obtain ⟨p, hp⟩ := hp
  have hen : CopyTo.enter cmds0 (bytewise (frames twoRows)) = .ok (.fine, p) := by
    unfold source at hp
    split at hp
    · cases hp; assumption
    · cases hp
  have hv : view source [to (takes copied), to (takes refused)] = some (.failed false, [(upload [115] [[49, 10], [50, 10]] ++ frames [copyDone, syncMsg], some .ok),
      (upload [115] [[49, 10], [50, 10]] ++ frames [copyDone, syncMsg], some (.dbError false (some (.server [([83], some [69, 82, 82, 79, 82])]))))]) := by decide +kernel
  rw [hp] at hv
  unfold view at hv
  rw [Option.map_some] at hv
  injection hv with hv
  injection hv with h1 h2
  cases hrun : run 99 p [to (takes copied), to (takes refused)] with
  | mk m o =>
    rw [hrun] at h1 h2
    dsimp only at h1 h2
    subst h1
    cases hs : m.slots with
    | nil => rw [hs] at h2; cases h2
    | cons s ss =>
      rw [hs, List.map_cons] at h2
      injection h2 with h2 _
      injection h2 with h2 _
      refine h _ _ _ false p [to (takes copied), to (takes refused)] 99 m false twoRows_says twoRows_arrives ?_ hen ?_ hrun s (by rw [hs]; exact List.mem_cons_self) [] [115] h2
      · intro row hr
        simp only [List.mem_cons, List.not_mem_nil, or_false] at hr
        rcases hr with rfl | rfl <;> (unfold Small; decide)
      · intro d hd
        rcases List.mem_cons.1 hd with rfl | hd
        · exact reached_takes _
        · rw [List.mem_singleton.1 hd]; exact reached_takes _

end PG.Props.Transfer
