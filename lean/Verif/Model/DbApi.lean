import Verif.Model.Py
/-!
# Model of `postgresql/driver/dbapi20.py`: `Portal` and the fetching side of `Cursor`

The `chunks` iterator of a portal (`FetchAll`, pq3.py:866-966) is the list of what its `next()` will do: give a fresh list of rows, or raise an
error of the database; at the end of the list `next()` raises StopIteration. Python's recursion limit (a portal with a thousand empty chunks in
a row) is not modelled.
-/
namespace PG.DbApi
open PG

variable {ρ ε : Type}

/-- What a call raises. -/
inductive Exc (ε : Type) where
  /-- StopIteration -/
  | stop
  /-- an error raised by the `chunks` iterator -/
  | database (e : ε)
  /-- dbapi20.py:142, 152: `Error("cursor is closed")` -/
  | closed
  /-- dbapi20.py:148, 158: `InterfaceError("no portal on stack")` -/
  | noPortal
  deriving DecidableEq, Repr

/-- dbapi20.py:81-125 `Portal`. -/
structure Portal (ρ ε : Type) where
  chunks : List (Except ε (List ρ))
  buf : List ρ
  pos : Nat
  deriving DecidableEq

/-- dbapi20.py:85-88 `Portal.__init__`. -/
def Portal.new (chunks : List (Except ε (List ρ))) : Portal ρ ε := ⟨chunks, [], 0⟩

/-- dbapi20.py:95-102: `__next__` when the buffer is used up; it calls itself with the next chunk for a buffer. -/
def nextChunk (buf : List ρ) (pos : Nat) : List (Except ε (List ρ)) → Except (Exc ε) ρ × Portal ρ ε
  | [] => (.error .stop, ⟨[], buf, pos⟩)
  | .error e :: cs => (.error (.database e), ⟨cs, buf, pos⟩)
  | .ok b :: cs =>
    match b[0]? with
    | some r => (.ok r, ⟨cs, b, 1⟩)
    | none => nextChunk b 0 cs

/-- dbapi20.py:90-102 `Portal.__next__`. -/
def Portal.next (p : Portal ρ ε) : Except (Exc ε) ρ × Portal ρ ε :=
  match p.buf[p.pos]? with
  | some r => (.ok r, { p with pos := p.pos + 1 })
  | none => nextChunk p.buf p.pos p.chunks

/-- dbapi20.py:107-108: the loop of `readall`: what is in the buffer at the end, what is left of the iterator, and what was raised. -/
def extendAll (buf : List ρ) : List (Except ε (List ρ)) → List ρ × List (Except ε (List ρ)) × Option ε
  | [] => (buf, [], none)
  | .error e :: cs => (buf, cs, some e)
  | .ok b :: cs => extendAll (buf ++ b) cs

/-- dbapi20.py:104-111 `Portal.readall`. -/
def Portal.readall (p : Portal ρ ε) : Except (Exc ε) (List ρ) × Portal ρ ε :=
  match extendAll (p.buf.drop p.pos) p.chunks with
  | (buf, cs, some e) => (.error (.database e), ⟨cs, buf, 0⟩)
  | (buf, cs, none) => (.ok buf, ⟨cs, [], 0⟩)

/-- dbapi20.py:115-116: the loop of `read`. The last component tells how it ended: `none` when there are enough rows. -/
def extendTo (amount : Int) (pos : Nat) (buf : List ρ) : List (Except ε (List ρ)) → List ρ × List (Except ε (List ρ)) × Option (Exc ε)
  | [] => if (buf.length : Int) - pos < amount then (buf, [], some .stop) else (buf, [], none)
  | c :: cs =>
    if (buf.length : Int) - pos < amount then
      match c with
      | .error e => (buf, cs, some (.database e))
      | .ok b => extendTo amount pos (buf ++ b) cs
    else (buf, c :: cs, none)

/-- The index a slice bound stands for in a list of `n` elements: negative bounds count from the end, and bounds are clipped. -/
def bound (n : Nat) (i : Int) : Nat := if i < 0 then (n + i).toNat else min i.toNat n

/-- dbapi20.py:122-125: `r = buf[pos:end]; del buf[:end]; pos = 0`. -/
def cutBuf (cs : List (Except ε (List ρ))) (buf : List ρ) (pos : Nat) (stop : Int) : Except (Exc ε) (List ρ) × Portal ρ ε :=
  (.ok (slice buf pos (bound buf.length stop)), ⟨cs, buf.drop (bound buf.length stop), 0⟩)

/-- dbapi20.py:113-125 `Portal.read`. -/
def Portal.read (p : Portal ρ ε) (amount : Int) : Except (Exc ε) (List ρ) × Portal ρ ε :=
  match extendTo amount p.pos p.buf p.chunks with
  | (buf, cs, none) => cutBuf cs buf p.pos (p.pos + amount)
  | (buf, cs, some .stop) => cutBuf cs buf p.pos buf.length
  | (buf, cs, some e) => (.error e, ⟨cs, buf, p.pos⟩)

/-- dbapi20.py:127-135 `Cursor`: the stack of portals (`None` when the cursor is closed) and `arraysize`. -/
structure Cursor (ρ ε : Type) where
  portals : Option (List (Portal ρ ε))
  arraysize : Int
  deriving DecidableEq

/-- dbapi20.py:129, 132-135 `Cursor.__init__`. -/
def Cursor.new : Cursor ρ ε := ⟨some [], 1⟩

/-- dbapi20.py:140-149: getting `_portal`. -/
def Cursor.portal (c : Cursor ρ ε) : Except (Exc ε) (Portal ρ ε × List (Portal ρ ε)) :=
  match c.portals with
  | none => .error .closed
  | some [] => .error .noPortal
  | some (p :: ps) => .ok (p, ps)

/-- Calling a method of the top portal. -/
def onPortal {β : Type} (c : Cursor ρ ε) (f : Portal ρ ε → Except (Exc ε) β × Portal ρ ε) : Except (Exc ε) β × Cursor ρ ε :=
  match c.portal with
  | .error e => (.error e, c)
  | .ok (p, ps) => ((f p).1, { c with portals := some ((f p).2 :: ps) })

/-- dbapi20.py:185-189 `Cursor.fetchone`. -/
def Cursor.fetchone (c : Cursor ρ ε) : Except (Exc ε) (Option ρ) × Cursor ρ ε :=
  match onPortal c Portal.next with
  | (.ok r, c) => (.ok (some r), c)
  | (.error .stop, c) => (.ok none, c)
  | (.error e, c) => (.error e, c)

/-- dbapi20.py:191-193 `Cursor.__next__`. -/
def Cursor.next (c : Cursor ρ ε) : Except (Exc ε) ρ × Cursor ρ ε := onPortal c Portal.next

/-- dbapi20.py:199: `arraysize or self.arraysize or 1`. -/
def amountOf (arg : Option Int) (arraysize : Int) : Int :=
  match arg with
  | some n => if n ≠ 0 then n else if arraysize ≠ 0 then arraysize else 1
  | none => if arraysize ≠ 0 then arraysize else 1

/-- dbapi20.py:198-199 `Cursor.fetchmany`. -/
def Cursor.fetchmany (c : Cursor ρ ε) (arg : Option Int) : Except (Exc ε) (List ρ) × Cursor ρ ε :=
  onPortal c fun p => p.read (amountOf arg c.arraysize)

/-- dbapi20.py:201-202 `Cursor.fetchall`. -/
def Cursor.fetchall (c : Cursor ρ ε) : Except (Exc ε) (List ρ) × Cursor ρ ε := onPortal c Portal.readall

/-- dbapi20.py:204-206 `Cursor.nextset`. -/
def Cursor.nextset (c : Cursor ρ ε) : Except (Exc ε) (Option Nat) × Cursor ρ ε :=
  match c.portals with
  | none => (.error .closed, c)
  | some [] => (.error .noPortal, c)
  | some (_ :: ps) => (.ok (if ps.length ≠ 0 then some ps.length else none), { c with portals := some ps })

/-- dbapi20.py:271-290: the end of `Cursor.execute`, when the statement has been prepared and executed; `rows` are the chunks when the statement
has output columns. Also `callproc` (dbapi20.py:171-183), which always has. -/
def Cursor.executed (c : Cursor ρ ε) (rows : Option (List (Except ε (List ρ)))) : Except (Exc ε) Unit × Cursor ρ ε :=
  match c.portals, rows with
  | none, _ => (.error .closed, c)
  | some ps, some chunks => (.ok (), { c with portals := some (Portal.new chunks :: ps) })
  | some ps, none => (.ok (), { c with portals := some ps.tail })

/-- dbapi20.py:306-311 `Cursor.close`. -/
def Cursor.close (c : Cursor ρ ε) : Except (Exc ε) Unit × Cursor ρ ε :=
  match c.portals with
  | none => (.error .closed, c)
  | some _ => (.ok (), { c with portals := none })

end PG.DbApi
