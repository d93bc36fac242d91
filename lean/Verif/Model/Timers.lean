import Mathlib.Algebra.Group.Defs

/-!
# Timers and the logger of their values

Models `Timer` (base/PyNucleus_base/performanceLogger.pyx:53-102) and `PLogger` (164-183).

Simplifications: times are elements of a group (no rounding) and part of the events; timers and keys are
numbers; barriers, memory regions, memory profiling, and messages are left out. The key of a timer and
whether its data is entered by hand are fixed by its constructor.
-/

namespace PyNucleus.Timers

/-- What happens: `start` and `end` of a timer at a time, `enterData` of a timer, `empty` of the
logger. -/
inductive Event (K : Type)
  | start (t : Nat) (time : K)
  | stop (t : Nat) (time : K)
  | enter (t : Nat)
  | empty

/-- `elapsed` and `startTime` of all timers, and the dictionary of the logger in its order. -/
structure State (K : Type) where
  elapsed : Nat → K
  startTime : Nat → K
  values : List (Nat × List K)

variable {K : Type}

/-- `addValue` (173-177). -/
def addValue : List (Nat × List K) → Nat → K → List (Nat × List K)
  | [], key, x => [(key, [x])]
  | (k, l) :: d, key, x => if k = key then (k, l ++ [x]) :: d else (k, l) :: addValue d key x

/-- `logger[key]` (179-180); a missing key gives no values. -/
def State.get (s : State K) (key : Nat) : List K := (s.values.lookup key).getD []

section
variable [AddCommGroup K]

/-- New timers (56) and a new logger (166). -/
def initial : State K := ⟨fun _ => 0, fun _ => 0, []⟩

/-- `start` (71-80), `end` (82-93), `enterData` (101-102), `empty` (170-171). -/
def step (key : Nat → Nat) (manual : Nat → Bool) (s : State K) : Event K → State K
  | .start t time => { s with startTime := fun u => if u = t then time else s.startTime u }
  | .stop t time =>
    let e := s.elapsed t + (time - s.startTime t)
    { s with
      elapsed := fun u => if u = t then e else s.elapsed u
      values := if manual t then s.values else addValue s.values (key t) e }
  | .enter t => { s with values := addValue s.values (key t) (s.elapsed t) }
  | .empty => { s with values := [] }

def run (key : Nat → Nat) (manual : Nat → Bool) (evs : List (Event K)) : State K :=
  evs.foldl (step key manual) initial

end

end PyNucleus.Timers
