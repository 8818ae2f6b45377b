import Verif.Props.ALock
import Verif.Props.Installation3
import Verif.Props.Iri
import Verif.Props.Chunks
/-!
# Cases at the edges, found by editing the model: C32, C38, C68, C86
-/
namespace PG.ALock

/-- How often object `i` was acquired in a program, by what its calls gave. -/
def acquired (i : Nat) : List (Op × Out) → Nat
  | [] => 0
  | (.acquire j _ _, .ret true) :: l => (if j = i then 1 else 0) + acquired i l
  | _ :: l => acquired i l

/-- How often it was released. -/
def released (i : Nat) : List (Op × Out) → Nat
  | [] => 0
  | (.release j, .none) :: l => (if j = i then 1 else 0) + released i l
  | _ :: l => released i l

theorem acquire_count (l : Lock) (s : Session) (b : Bool) (a : Answer) : (acquire l s b a).2.1.count = l.count + (if (acquire l s b a).1 = .ret true then 1 else 0) ∧ (acquire l s b a).1 ≠ .none := by
  unfold acquire
  split
  · split
    · simp
    · split
      · split <;> simp
      · dsimp only
        split <;> simp
  · simp

theorem release_count (l : Lock) (s : Session) : (release l s).2.1.count + (if (release l s).1 = .none then 1 else 0) = l.count ∧ ((release l s).1 = .none ∨ (release l s).1 = .runtimeError) := by
  unfold release
  split
  · simp
  · split
    · dsimp only; rw [if_pos rfl]; exact ⟨by omega, .inl rfl⟩
    · dsimp only; rw [if_pos rfl]; exact ⟨by omega, .inl rfl⟩

theorem step_count (st : State) (o : Op) (i : Nat) (l : Lock) (h : st.locks[i]? = some l) : ∃ l', (step st o).2.locks[i]? = some l' ∧
    l'.count + released i [(o, (step st o).1)] = l.count + acquired i [(o, (step st o).1)] := by
  have hi : i < st.locks.length := (List.getElem?_eq_some_iff.mp h).1
  cases o with
  | close => exact ⟨l, h, rfl⟩
  | acquire j b a =>
    cases hj : st.locks[j]? with
    | none =>
      have hs : step st (.acquire j b a) = (.none, st) := by
        unfold step
        dsimp only
        rw [hj]
      rw [hs]
      exact ⟨l, h, rfl⟩
    | some m =>
      have hs : step st (.acquire j b a) = ((acquire m st.session b a).1, ⟨(acquire m st.session b a).2.2, st.locks.set j (acquire m st.session b a).2.1⟩) := by
        unfold step
        dsimp only
        rw [hj]
      rw [hs]
      obtain ⟨h1, h2⟩ := acquire_count m st.session b a
      generalize hr : acquire m st.session b a = r at h1 h2 ⊢
      obtain ⟨o, m', s'⟩ := r
      dsimp only at h1 h2 ⊢
      by_cases e : j = i
      · subst e
        rw [hj] at h
        cases h
        refine ⟨m', by rw [List.getElem?_set_self hi], ?_⟩
        cases o with
        | ret x => cases x <;> simp [acquired, released] at h1 ⊢ <;> omega
        | none => exact absurd rfl h2
        | runtimeError => simp [acquired, released] at h1 ⊢; omega
        | raised => simp [acquired, released] at h1 ⊢; omega
      · refine ⟨l, by rw [List.getElem?_set_ne e]; exact h, ?_⟩
        cases o with
        | ret x => cases x <;> simp [acquired, released, e]
        | _ => simp [acquired, released]
  | release j =>
    cases hj : st.locks[j]? with
    | none =>
      have hs : step st (.release j) = (.none, st) := by
        unfold step
        dsimp only
        rw [hj]
      rw [hs]
      have e : j ≠ i := by
        intro e
        subst e
        rw [hj] at h
        cases h
      exact ⟨l, h, by simp [acquired, released, e]⟩
    | some m =>
      have hs : step st (.release j) = ((release m st.session).1, ⟨(release m st.session).2.2, st.locks.set j (release m st.session).2.1⟩) := by
        unfold step
        dsimp only
        rw [hj]
      rw [hs]
      obtain ⟨h1, h2⟩ := release_count m st.session
      generalize hr : release m st.session = r at h1 h2 ⊢
      obtain ⟨o, m', s'⟩ := r
      dsimp only at h1 h2 ⊢
      by_cases e : j = i
      · subst e
        rw [hj] at h
        cases h
        refine ⟨m', by rw [List.getElem?_set_self hi], ?_⟩
        rcases h2 with rfl | rfl <;> simp [acquired, released] at h1 ⊢ <;> omega
      · refine ⟨l, by rw [List.getElem?_set_ne e]; exact h, ?_⟩
        rcases h2 with rfl | rfl <;> simp [acquired, released, e]

theorem acquired_cons (i : Nat) (x : Op × Out) (l : List (Op × Out)) : acquired i (x :: l) = acquired i [x] + acquired i l ∧ released i (x :: l) = released i [x] + released i l := by
  obtain ⟨o, u⟩ := x
  cases o <;> cases u <;> simp [acquired, released]
  rename_i b
  cases b <;> simp [acquired]

theorem run_count (program : List Op) : ∀ (st : State) (i : Nat) (l : Lock), st.locks[i]? = some l → ∃ l', (run st program).2.locks[i]? = some l' ∧
    l'.count + released i (program.zip (run st program).1) = l.count + acquired i (program.zip (run st program).1) := by
  induction program with
  | nil => intro st i l h; exact ⟨l, h, rfl⟩
  | cons o os ih =>
    intro st i l h
    obtain ⟨l1, h1, e1⟩ := step_count st o i l h
    obtain ⟨l2, h2, e2⟩ := ih _ i l1 h1
    refine ⟨l2, h2, ?_⟩
    show l2.count + released i ((o, (step st o).1) :: os.zip _) = l.count + acquired i ((o, (step st o).1) :: os.zip _)
    rw [(acquired_cons ..).1, (acquired_cons ..).2]
    omega

/-- **C38 (counting).** In every program over any number of objects, nested or not, with the connection closed on the way or not: a release of an object is accepted exactly if the object was acquired more often than it was released, and raises RuntimeError otherwise. -/
theorem C38_count (objects : List (Mode × List Ident)) (program : List Op) (i : Nat) (hi : i < objects.length) :
    let r := run (start objects) program
    let out := (step r.2 (.release i)).1
    out = (if released i (program.zip r.1) < acquired i (program.zip r.1) then .none else .runtimeError) := by
  dsimp only
  have h0 : (start objects).locks[i]? = some ⟨objects[i].1, objects[i].2, 0⟩ := by
    unfold start
    rw [List.getElem?_map, List.getElem?_eq_getElem hi]
    rfl
  obtain ⟨l, hl, e⟩ := run_count program (start objects) i _ h0
  have e : l.count + released i (program.zip (run (start objects) program).1) = 0 + acquired i (program.zip (run (start objects) program).1) := e
  have hs : (step (run (start objects) program).2 (.release i)).1 = (release l (run (start objects) program).2.session).1 := by
    unfold step
    dsimp only
    rw [hl]
  rw [hs]
  unfold release
  by_cases hc : l.count < 1
  · rw [if_pos hc, if_neg (by omega)]
  · have hlt : released i (program.zip (run (start objects) program).1) < acquired i (program.zip (run (start objects) program).1) := by omega
    rw [if_neg hc, if_pos hlt]
    split <;> rfl

/-- Acquired twice, the connection closed, released twice; a third time is an error. -/
example : (run (start [(.share, [.int 4])]) [.acquire 0 true ⟨[], none⟩, .acquire 0 true ⟨[], none⟩, .close, .release 0, .release 0, .release 0]).1 =
    [.ret true, .ret true, .none, .none, .none, .runtimeError] := by decide

end PG.ALock

namespace PG.Installation

/-- **C68 (programs that do not answer).** If `pg_config` cannot be started, does not end, or prints what is not text, the exception says so; the way of old versions is tried only if it ends with an error. -/
theorem C68_broken (U : Unicode) (P : Program) : (P [] = .garbage → pgConfigDictionary U P = .error .decode) ∧ (P [] = .stuck → pgConfigDictionary U P = .error .timeout) ∧ (P [] = .missing → pgConfigDictionary U P = .error .os) := by
  refine ⟨fun h => ?_, fun h => ?_, fun h => ?_⟩ <;>
  · unfold pgConfigDictionary commandOutput
    rw [List.map_nil, h]

example : pgConfigDictionary Unicode.ascii (fun _ => .garbage) = .error .decode := (C68_broken _ _).1 rfl

end PG.Installation

namespace PG.Iri

/-- **C32 (schemes).** An IRI with one of the schemes pq, postgres and postgresql, in any case, means what it means without a scheme; with any other scheme it is refused with ValueError. -/
theorem C32_schemes (E : Env) (f : Str → Str) (d : RiParse.Dict) (s : Str) :
    (E.U.lower s ∈ ["pq".toList, "postgres".toList, "postgresql".toList] → structure_ E f { d with scheme := some s } = structure_ E f { d with scheme := none }) ∧
    (E.U.lower s ∉ ["pq".toList, "postgres".toList, "postgresql".toList] → structure_ E f { d with scheme := some s } = .error .valueError) := by
  have hn : schemeOk E.U none = true := by
    unfold schemeOk
    rw [Option.getD_none, E.U.lower_ascii _ (by decide)]
    decide
  constructor
  · intro h
    have hs : schemeOk E.U (some s) = true := by
      unfold schemeOk
      rw [Option.getD_some]
      exact List.contains_iff_mem.mpr h
    unfold structure_
    rw [if_pos hs, if_pos hn]
  · intro h
    have hs : ¬ schemeOk E.U (some s) = true := by
      unfold schemeOk
      rw [Option.getD_some]
      exact fun g => h (List.contains_iff_mem.mp g)
    unfold structure_
    rw [if_neg hs]

example : Unicode.ascii.lower "PostgreSQL".toList ∈ ["pq".toList, "postgres".toList, "postgresql".toList] ∧ Unicode.ascii.lower "pqs".toList ∉ ["pq".toList, "postgres".toList, "postgresql".toList] := by decide +kernel

end PG.Iri

namespace PG.Chunks
open PG.Row

/-- **C86 (rows of the wrong width).** If the server sends a row with another number of columns than it described, asking for it raises TypeError; no row is cut or filled up. -/
theorem C86_wrong_width {β : Type} (io : List (Bytes → Except Err β)) (good : List (List (Option Bytes))) (bad : List (Option Bytes)) (rest : List Datum) (hb : bad.length ≠ io.length)
    (hg : ∀ t ∈ good, ∃ v, processTuple io t = .ok v) (p : Processing) (hp : p = .rows ∨ p = .tuples) : process (some io) p (good.map .tuple ++ .tuple bad :: rest) = .error .typeError := by
  have key : (good.map Datum.tuple ++ Datum.tuple bad :: rest).mapM (decodeTuple io) = .error .typeError := by
    induction good with
    | nil =>
      rw [List.map_nil, List.nil_append, List.mapM_cons]
      have : decodeTuple io (.tuple bad) = .error .typeError := by
        unfold decodeTuple processTuple
        dsimp only
        rw [if_pos hb]
        rfl
      rw [this]
      rfl
    | cons t good ih =>
      obtain ⟨v, hv⟩ := hg t List.mem_cons_self
      rw [List.map_cons, List.cons_append, List.mapM_cons, ih (fun u hu => hg u (List.mem_cons_of_mem _ hu))]
      have : decodeTuple io (.tuple t) = .ok v := by
        unfold decodeTuple
        dsimp only
        rw [hv]
        rfl
      rw [this]
      rfl
  rcases hp with rfl | rfl <;>
  · unfold process
    dsimp only [Option.getD_some]
    rw [key]
    rfl

example : process (some [fun b => Except.ok (beDec b)]) .rows [.tuple [some [1]], .tuple [some [1], none], .tuple [none]] = .error .typeError :=
  C86_wrong_width _ [[some [1]]] _ _ (by decide) (fun t ht => by cases List.mem_singleton.mp ht; exact ⟨_, rfl⟩) _ (Or.inl rfl)

end PG.Chunks
