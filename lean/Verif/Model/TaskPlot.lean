import Verif.Model.TaskGraph

/-!
# The plot of the tasks of a run (tools/plot_tasks.py)

The script reads the task log and the type log of the wrapper (`Model/LogFile`). Texts are lists of characters. `none` stands for an
exception: there is no plot. Not modelled: how Matplotlib draws the bars. numpy is used by the script as it documents itself: `loadtxt` drops
what follows a `#`, skips empty lines and cuts the others at the delimiter. Whether lines may have more columns than the type of the
records has fields depends on the version: `strict` (since 1.23) refuses them, earlier ones ignore the additional columns.
-/
namespace Verif.TaskPlot

open Verif
open Verif.LogFile (Str)
open Verif.TaskGraph (linesFrom toInt trim)

set_option autoImplicit false

/-- `split("\t")`; `cur` is the start of the field -/
def fieldsFrom (cur : Str) : Str → List Str
  | [] => [cur]
  | c :: s => if c = '\t' then cur :: fieldsFrom [] s else fieldsFrom (cur ++ [c]) s

/-- what `loadtxt` keeps of a line: what is in front of `#` or of the end of the line -/
def content (line : Str) : Str := line.takeWhile fun c => c ≠ '#' ∧ c ≠ '\n'

/-- the lines that `loadtxt` sees, as fields -/
def loadRows (text : Str) : List (List Str) :=
  (linesFrom [] text).filterMap fun line => if content line = [] then none else some (fieldsFrom [] (content line))

/-- a number of a type with `bits` binary digits that are not the sign -/
def number (bits : Nat) (w : Str) : Option Nat :=
  match toInt w with
  | some n => if n < 2 ^ bits then some n else none
  | none => none

/-- the conversion of all rows; one exception is enough -/
def convert {α : Type} (f : List Str → Option α) : List (List Str) → Option (List α)
  | [] => some []
  | r :: rs =>
    match f r, convert f rs with
    | some x, some xs => some (x :: xs)
    | _, _ => none

/-- a record of the type log: `i4` and `S100`, which keeps 100 characters (plot_tasks.py:60-65) -/
def typeRecord (strict : Bool) : List Str → Option (Nat × Str)
  | a :: b :: rest =>
    if strict = true ∧ rest ≠ [] then none else
    match number 31 a with
    | some n => some (n, b.take 100)
    | none => none
  | _ => none

/-- a record of the task log: `i4`, `u8`, `u8` and `i4` (plot_tasks.py:80-87) -/
structure Task where
  thread : Nat
  start : Nat
  stop : Nat
  type : Nat

def taskRecord (strict : Bool) : List Str → Option Task
  | a :: b :: c :: d :: rest =>
    if strict = true ∧ rest ≠ [] then none else
    match number 31 a, number 64 b, number 64 c, number 31 d with
    | some th, some s, some e, some ty => some ⟨th, s, e, ty⟩
    | _, _, _, _ => none
  | _ => none

/-- `task_types.sort(0)` (plot_tasks.py:66): by number; the names are only compared if numbers are equal, which is left out -/
def sortTypes (l : List (Nat × Str)) : List (Nat × Str) := l.mergeSort fun a b => decide (a.1 ≤ b.1)

/-- a bar: where it starts, its length and the number of its colour -/
structure Bar where
  start : Nat
  length : Nat
  colour : Nat
  deriving DecidableEq

/-- the difference of two numbers of 64 bits (plot_tasks.py:112) -/
def difference (e s : Nat) : Nat := (e + 2 ^ 64 - s) % 2 ^ 64

/-- a bar of the plot (plot_tasks.py:112-113) -/
def bar (t : Task) : Bar := ⟨t.start, difference t.stop t.start, t.type⟩

/-- what is drawn: the bars of all threads, the names in the legend with the number of the colour as index, and the
two dashed lines -/
structure Plot where
  threads : List (List Bar)
  legend : List Str
  first : Nat
  last : Nat

def maxOf (f : Task → Nat) (t : Task) (ts : List Task) : Nat := ts.foldl (fun m x => max m (f x)) (f t)
def minOf (f : Task → Nat) (t : Task) (ts : List Task) : Nat := ts.foldl (fun m x => min m (f x)) (f t)

/-- the plot (plot_tasks.py:59-136) -/
def plot (strict : Bool) (typeText taskText : Str) : Option Plot :=
  match convert (typeRecord strict) (loadRows typeText), convert (taskRecord strict) (loadRows taskText) with
  | some types, some (t :: ts) =>
    if (t :: ts).all (fun x => decide (x.type < types.length)) = true then
      some { threads := (List.range (maxOf Task.thread t ts + 1)).map fun i => ((t :: ts).filter fun x => x.thread = i).map bar
             legend := (sortTypes types).map fun x => trim x.2
             first := minOf Task.start t ts
             last := maxOf Task.stop t ts }
    else none
  | _, _ => none

/-- the load that is written next to a thread (plot_tasks.py:121-123) -/
def load (p : Plot) (bars : List Bar) : Rat := ((bars.map Bar.length).sum : Nat) / ((p.last - p.first : Nat) : Rat)

/-- the colour with number `i` of `n`: which of the 20 colours of the map `tab20` is used (plot_tasks.py:75-77); in exact arithmetic, `linspace(0, 1, n)` is
`i / (n - 1)`, and the map cuts `[0, 1]` into 20 equal parts -/
def colour (n i : Nat) : Nat := if n ≤ 1 then 0 else min 19 (20 * i / (n - 1))

end Verif.TaskPlot
