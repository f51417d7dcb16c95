/-! # Model of `timer`

`/repo/marcel/op/timer.py` 45-112 (`Timer`, `Metronome`).

Two threads, the one of the command (`Timer.run`) and the metronome, take turns in any order; every access to something shared is
a step of its own. The shared things are the condition's lock, and `now`. Time is a counter, which advances by any amount between two steps;
`time.time()` gives it (so: nobody sets the clock back), and `time.sleep(d)` ends when at least `d` has gone by, maybe later.
Waiting on the condition gives up the lock, and ends when notified or after a second; the lock is then acquired again (the
documentation of `threading.Condition.wait`). Sending a timestamp down the pipeline takes any time, and it may end the command.
Not modelled: an interrupt (control-C) of the command. -/

namespace Marcel.Timer

inductive Who | command | metronome
deriving DecidableEq, Repr

/-- `Metronome.run` 109-112 with `register_tick` 94-98. -/
inductive Metro
  | unborn
  | acquire
  | register
  | notify
  | release
  | sleep (til : Nat)
  | dead
deriving DecidableEq, Repr

/-- `Timer.run` 67-85. -/
inductive Cmd
  | start
  | acquire
  | check
  | waiting
  | woken
  | read
  | clear (x : Nat)
  | release (x : Nat)
  | send (x : Nat)
  | ended
deriving DecidableEq, Repr

/-- `now` is `self.now`; `lock` says who has it. `ticks` and `sent` record what happened: the timestamps that the metronome
took, and those that were sent, the first one first. -/
structure State where
  clock : Nat
  now : Option Nat
  lock : Option Who
  metro : Metro
  cmd : Cmd
  ticks : List Nat
  sent : List Nat

/-- After `setup` (61-63). -/
def State.init (clock : Nat) : State := ⟨clock, none, none, .unborn, .start, [], []⟩

/-- A step. `interval` is the argument of `time.sleep` in 112; `none` stands for an argument for which that raises an exception, and ends the
thread: a negative number, or a function (`to_float`, argsparser.py 186-194, lets it pass, and `timer` does not call it). -/
inductive Step (interval : Option Nat) : State → State → Prop
  /-- Time goes by. -/
  | time (s : State) (d : Nat) : Step interval s { s with clock := s.clock + d }
  /-- 73 -/
  | start (s : State) : s.cmd = .start → s.metro = .unborn → Step interval s { s with cmd := .acquire, metro := .acquire }
  /-- 75 -/
  | acquire (s : State) : s.cmd = .acquire → s.lock = none → Step interval s { s with cmd := .check, lock := some .command }
  /-- 76, 81: wait gives up the lock -/
  | checkNone (s : State) : s.cmd = .check → s.now = none → Step interval s { s with cmd := .waiting, lock := none }
  /-- 81: a second has gone by -/
  | timeout (s : State) : s.cmd = .waiting → Step interval s { s with cmd := .woken }
  /-- 81: wait acquires the lock again -/
  | again (s : State) : s.cmd = .woken → s.lock = none → Step interval s { s with cmd := .check, lock := some .command }
  /-- 76 -/
  | checkSome (s : State) (x : Nat) : s.cmd = .check → s.now = some x → Step interval s { s with cmd := .read }
  /-- 82 -/
  | read (s : State) (x : Nat) : s.cmd = .read → s.now = some x → Step interval s { s with cmd := .clear x }
  /-- 83 -/
  | clear (s : State) (x : Nat) : s.cmd = .clear x → Step interval s { s with cmd := .release x, now := none }
  /-- 84 -/
  | release (s : State) (x : Nat) : s.cmd = .release x → Step interval s { s with cmd := .send x, lock := none }
  /-- 85 -/
  | send (s : State) (x : Nat) : s.cmd = .send x → Step interval s { s with cmd := .acquire, sent := s.sent ++ [x] }
  /-- 85: an exception in the rest of the pipeline ends the command -/
  | fail (s : State) (x : Nat) : s.cmd = .send x → Step interval s { s with cmd := .ended, sent := s.sent ++ [x] }
  /-- 95 -/
  | tickAcquire (s : State) : s.metro = .acquire → s.lock = none → Step interval s { s with metro := .register, lock := some .metronome }
  /-- 96 -/
  | register (s : State) : s.metro = .register → Step interval s { s with metro := .notify, now := some s.clock, ticks := s.ticks ++ [s.clock] }
  /-- 97: whoever waits has to acquire the lock -/
  | notify (s : State) : s.metro = .notify → Step interval s { s with metro := .release, cmd := if s.cmd = .waiting then .woken else s.cmd }
  /-- 98, 112 -/
  | tickRelease (s : State) (d : Nat) : s.metro = .release → interval = some d → Step interval s { s with metro := .sleep (s.clock + d), lock := none }
  /-- 98, 112: `sleep` raises an exception -/
  | die (s : State) : s.metro = .release → interval = none → Step interval s { s with metro := .dead, lock := none }
  /-- 112 -/
  | wake (s : State) (t : Nat) : s.metro = .sleep t → t ≤ s.clock → Step interval s { s with metro := .acquire }

/-- What can be reached from the start. -/
inductive Reach (interval : Option Nat) : State → Prop
  | init (clock : Nat) : Reach interval (State.init clock)
  | step {s s' : State} : Reach interval s → Step interval s s' → Reach interval s'

end Marcel.Timer
