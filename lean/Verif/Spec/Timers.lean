import Verif.Model.Timers
import Mathlib.Algebra.BigOperators.Group.List.Basic

/-!
# What timers should report

Everything is read off the events.
-/

namespace PyNucleus.Spec.Timers

open PyNucleus.Timers

variable {K : Type}

def isStart (t : Nat) : Event K → Bool | .start u _ => u == t | _ => false
def isStop (t : Nat) : Event K → Bool | .stop u _ => u == t | _ => false
def isEmpty : Event K → Bool | .empty => true | _ => false

def starts (t : Nat) (l : List (Event K)) : Nat := l.countP (isStart t)
def stops (t : Nat) (l : List (Event K)) : Nat := l.countP (isStop t)

/-- After the events `l` the event `e` is sensible: a timer is started if it does not run, stopped if it
runs, and asked to enter its data if it does not run. -/
def Allowed (l : List (Event K)) : Event K → Prop
  | .start t _ => starts t l = stops t l
  | .stop t _ => starts t l = stops t l + 1
  | .enter t => starts t l = stops t l
  | .empty => True

/-- All events are sensible. -/
def Proper (evs : List (Event K)) : Prop := ∀ l e r, evs = l ++ e :: r → Allowed l e

variable [AddCommGroup K]

/-- The time of an event if it belongs to a timer in `T`: positive for an end, negative for a start. -/
def signed (T : Nat → Bool) : Event K → K
  | .start t time => if T t then -time else 0
  | .stop t time => if T t then time else 0
  | _ => 0

/-- The time that the timers in `T` have run. -/
def spent (T : Nat → Bool) (l : List (Event K)) : K := (l.map (signed T)).sum

/-- The time of one timer. -/
def spentBy (t : Nat) (l : List (Event K)) : K := spent (fun u => u == t) l

/-- Timers whose event enters a value under the key. -/
def enters (key : Nat → Nat) (manual : Nat → Bool) (k : Nat) : Event K → Option Nat
  | .stop t _ => if key t = k ∧ manual t = false then some t else none
  | .enter t => if key t = k then some t else none
  | _ => none

/-- The values that belong to a key: for each event that enters one, the time its timer has spent so
far. -/
def entries (key : Nat → Nat) (manual : Nat → Bool) (k : Nat) (evs : List (Event K)) : List K :=
  (List.range evs.length).filterMap fun i =>
    (evs[i]?.bind (enters key manual k)).map fun t => spentBy t (evs.take (i + 1))

end PyNucleus.Spec.Timers
