import Verif.Model.LogFile
import Verif.Model.Units

/-!
# The picture of a task graph (tools/plot_taskgraph.py)

The script reads the graph log of the wrapper (`Model/LogFile`) and writes a Graphviz file.  Texts are lists of characters, as in `Model/Text`.
`none` stands for an exception or `exit()`: there is no output file.
-/
namespace Verif.TaskGraph

open Verif
open Verif.Text (showNat isDigit digit)
open Verif.LogFile (Str)

set_option autoImplicit false

/-- `trim_label` (plot_taskgraph.py:44-48) -/
def trim (label : Str) : Str := if label.length > 10 then label.drop 2 else label.drop 1

/-- `readlines()`: lines with the newline at their end; `cur` is the start of the line -/
def linesFrom (cur : Str) : Str → List Str
  | [] => if cur = [] then [] else [cur]
  | c :: s => if c = '\n' then (cur ++ [c]) :: linesFrom [] s else linesFrom (cur ++ [c]) s

/-- `split()`: words between blanks (only those of ASCII); `cur` is the start of the word -/
def wordsFrom (cur : Str) : Str → List Str
  | [] => if cur = [] then [] else [cur]
  | c :: s =>
    if Units.isSpace c then (if cur = [] then wordsFrom [] s else cur :: wordsFrom [] s) else wordsFrom (cur ++ [c]) s

/-- `int(word)` for a word of digits; other words, also numbers with a sign, are not accepted here -/
def toInt (w : Str) : Option Nat := if w ≠ [] ∧ w.all isDigit = true then some (w.foldl (fun v c => v * 10 + digit c) 0) else none

/-- the dictionaries and lists (plot_taskgraph.py:53-58) -/
structure File where
  resources : Nat → Option Str
  tasks : Nat → Option Str
  reads : List (Nat × Nat)
  writes : List (Nat × Nat)
  orders : List (Nat × Nat)
  children : List (Nat × Nat)

def File.empty : File := ⟨fun _ => none, fun _ => none, [], [], [], []⟩

/-- `dict[key] = value` -/
def put (d : Nat → Option Str) (key : Nat) (value : Str) : Nat → Option Str := fun k => if k = key then some value else d k

/-- the two numbers of a link -/
def link (words : List Str) : Option (Nat × Nat) :=
  match words with
  | _ :: a :: b :: _ =>
    match toInt a, toInt b with
    | some x, some y => some (x, y)
    | _, _ => none
  | _ => none

/-- the number and the label of a node -/
def label (words : List Str) : Option (Nat × Str) :=
  match words with
  | _ :: a :: b :: _ =>
    match toInt a with
    | some x => some (x, trim b)
    | none => none
  | _ => none

/-- one line of the log (plot_taskgraph.py:59-72) -/
def readLine (f : File) (line : Str) : Option File :=
  match wordsFrom [] line with
  | [] => none
  | w :: rest =>
    if w = "resource".toList then (label (w :: rest)).map fun x => { f with resources := put f.resources x.1 x.2 }
    else if w = "task".toList then (label (w :: rest)).map fun x => { f with tasks := put f.tasks x.1 x.2 }
    else if w = "readlink".toList then (link (w :: rest)).map fun x => { f with reads := f.reads ++ [x] }
    else if w = "writelink".toList then (link (w :: rest)).map fun x => { f with writes := f.writes ++ [x] }
    else if w = "tasklink".toList then (link (w :: rest)).map fun x => { f with orders := f.orders ++ [x] }
    else if w = "child".toList then (link (w :: rest)).map fun x => { f with children := f.children ++ [x] }
    else some f

/-- the loop over the lines (plot_taskgraph.py:59) -/
def readLines : List Str → File → Option File
  | [], f => some f
  | l :: ls, f => (readLine f l).bind (readLines ls)

/-- `if not x in xs: xs.append(x)` -/
def addNew (x : Str) (xs : List Str) : List Str := if x ∈ xs then xs else xs ++ [x]

/-- `nodes` and `lines` -/
structure Picture where
  nodes : List Str
  lines : List Str

/-- the loop over the links between tasks (plot_taskgraph.py:76-83) -/
def drawOrders (f : File) : List (Nat × Nat) → Picture → Option Picture
  | [], p => some p
  | x :: xs, p =>
    match f.tasks x.1, f.tasks x.2 with
    | some a, some b => drawOrders f xs { p with lines := addNew (a ++ "->".toList ++ b ++ ";".toList) p.lines }
    | _, _ => none

/-- the loops over the links between tasks and resources (plot_taskgraph.py:84-105) -/
def drawAccess (f : File) (colour : Str) : List (Nat × Nat) → Picture → Option Picture
  | [], p => some p
  | x :: xs, p =>
    match f.tasks x.1, f.resources x.2 with
    | some a, some r =>
      let res := "res".toList ++ r
      drawAccess f colour xs { nodes := addNew res p.nodes, lines := addNew (a ++ "->".toList ++ res ++ ("[color=\"".toList ++ colour ++ "\"];".toList)) p.lines }
    | _, _ => none

/-- the loop over the children (plot_taskgraph.py:106-115) -/
def drawChildren (f : File) : List (Nat × Nat) → Picture → Option Picture
  | [], p => some p
  | x :: xs, p =>
    match f.resources x.1, f.resources x.2 with
    | some a, some b =>
      drawChildren f xs { p with lines := addNew ("res".toList ++ a ++ "->".toList ++ ("res".toList ++ b) ++ "[color=\"green\"];".toList) p.lines }
    | _, _ => none

/-- the nodes and lines of the picture for a log -/
def picture (log : Str) : Option Picture :=
  (readLines (linesFrom [] log) File.empty).bind fun f =>
    (drawOrders f f.orders ⟨[], []⟩).bind fun p =>
      (drawAccess f "blue".toList f.reads p).bind fun p =>
        (drawAccess f "red".toList f.writes p).bind fun p => drawChildren f f.children p

/-- the output file (plot_taskgraph.py:117-123) -/
def dot (p : Picture) : Str :=
  "digraph task_flow{\n".toList ++ p.nodes.flatMap (fun n => n ++ "[label=\"".toList ++ n.drop 3 ++ "\" color=\"blue\"];\n".toList)
    ++ p.lines.flatMap (fun l => l ++ ['\n']) ++ "}".toList

end Verif.TaskGraph
