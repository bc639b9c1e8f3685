import Verif.Model.Base
import Mathlib.Data.Real.Basic

/-!
# `include/timer.h`, `src/timer.cpp`

Time readings are real numbers: the rounding of the conversion to `duration<double>` is not modelled.  The readings of the system
clock are a parameter `now : ℕ → ℝ`: `now k` is the value of the `k`-th call of `system_clock::now()`.
-/

namespace Qbox

/-- `class timer`, `include/timer.h:26-54`. -/
structure Timer where
  duration : ℝ
  start : ℝ
  ticking : Bool

/-- `enum class clock_name`, `include/timer.h:14-19`. -/
inductive ClockName | fourier | looping | hdf5 | self
  deriving DecidableEq, Repr

/-- `class timers`, `include/timer.h:61-85`, together with the number `reads` of clock readings made so far. -/
structure Clocks where
  fourier : Timer
  looping : Timer
  hdf5 : Timer
  self : Timer
  reads : ℕ

/-- message of `include/timer.h:34` -/
def startMsg : String := "Cannot start a clock already ticking"
/-- message of `include/timer.h:42` -/
def stopMsg : String := "Cannot stop a clock that isn't ticking"

/-- `timer()`, `include/timer.h:29`. -/
def Timer.new : Timer := ⟨0, 0, false⟩

/-- `time_map[name]` -/
def Clocks.get (c : Clocks) : ClockName → Timer
  | .fourier => c.fourier
  | .looping => c.looping
  | .hdf5 => c.hdf5
  | .self => c.self

/-- assignment to `time_map[name]` -/
def Clocks.set (c : Clocks) (n : ClockName) (t : Timer) : Clocks :=
  match n with
  | .fourier => { c with fourier := t }
  | .looping => { c with looping := t }
  | .hdf5 => { c with hdf5 := t }
  | .self => { c with self := t }

/-- `timers::start`, `src/timer.cpp:18-20` with `timer::begin`, `include/timer.h:32-37`. -/
def Clocks.begin (now : ℕ → ℝ) (c : Clocks) (n : ClockName) : M Clocks :=
  let t := c.get n
  if t.ticking then .error (.exn startMsg)
  else .ok { c.set n { t with start := now c.reads, ticking := true } with reads := c.reads + 1 }

/-- `timers::stop`, `src/timer.cpp:22-24` with `timer::end`, `include/timer.h:40-45`. -/
def Clocks.stop (now : ℕ → ℝ) (c : Clocks) (n : ClockName) : M Clocks :=
  let t := c.get n
  if t.ticking then
    .ok { c.set n { t with duration := t.duration + (now c.reads - t.start), ticking := false } with
          reads := c.reads + 1 }
  else .error (.exn stopMsg)

/-- `timers::timers`, `src/timer.cpp:10-16`. -/
def Clocks.make (now : ℕ → ℝ) : M Clocks :=
  Clocks.begin now ⟨.new, .new, .new, .new, 0⟩ .self

/-- The numbers displayed on destruction (`timers::~timers`, `src/timer.cpp:42-45`, and `display`, `:27-40`): looping, fourier,
hdf5, other, total. -/
structure Report where
  looping : ℝ
  fourier : ℝ
  hdf5 : ℝ
  other : ℝ
  total : ℝ

/-- `timers::~timers`, `src/timer.cpp:42-45`. -/
noncomputable def Clocks.report (now : ℕ → ℝ) (c : Clocks) : M Report := do
  let c ← c.stop now .self
  pure { looping := c.looping.duration, fourier := c.fourier.duration, hdf5 := c.hdf5.duration,
         other := c.self.duration - c.hdf5.duration - c.fourier.duration - c.looping.duration,
         total := c.self.duration }

end Qbox
