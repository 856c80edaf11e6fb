import Verif.Model.Errors
/- Who is to be called when the library reports errors. -/
namespace Verif.Errors

/-- The handler in force after the calls `past`: the one that was set last, in C++ or in C; the default if none was, or if the last call took it away. -/
def current (past : List Op) : Who :=
  match past.reverse.find? fun o => match o with | .error _ _ => false | _ => true with
  | some (.set (some h)) => .cpp h
  | some (.setC (some h)) => .c h
  | _ => .dflt

/-- The text a handler gets: a C function sees no more than what comes before the first NUL. -/
def text : Who → List Char → List Char
  | .c _, msg => msg.takeWhile (· ≠ Char.ofNat 0)
  | _, msg => msg

/-- The call that is due for one step after `past`: for an error, one of the handler in force, with text and status. -/
def due (past : List Op) : Op → Option Ev
  | .error msg st => some (current past, text (current past) msg, st)
  | _ => none

/-- The calls a program should cause, if every handler returned. -/
def expected (ops : List Op) : List Ev := (List.range ops.length).filterMap fun i => (ops[i]?).bind (due (ops.take i))

/-- A list up to the first entry with `p`, which is kept. -/
def upTo {α : Type} (p : α → Bool) : List α → List α
  | [] => []
  | x :: xs => if p x then [x] else x :: upTo p xs

/-- Whether a handler ends the program: the default one always does. -/
def final (ends : Who → Bool) (w : Who) : Bool := decide (w = .dflt) || ends w
end Verif.Errors
