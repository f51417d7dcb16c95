/-! # Model of job control

`/repo/marcel/job.py` 87-198 (`Job`), 245-334 (`JobControl`); `/repo/marcel/op/jobop.py` 42-53, `fg.py`, `bg.py`, `jobs.py`;
`/repo/marcel/main.py` 207-233 (the loop which runs a command and waits for the foreground job).

A state consists of the list of jobs, of what the main thread is doing, and of the processes. The main thread, the signal handlers (which
run between any two of its steps) and the processes take turns in any order. Starting a process and entering the job into the list
are two steps (job.py 267, 268). A handler, and a command like `fg`, are one step each. Not modelled: the thread listening to the
processes, `shutdown`, and failing system calls. A process is numbered by its pid, which is not reused while there is a job with it. -/

namespace Marcel.Jobs

abbrev Pid := Nat

/-- job.py 90-93 -/
inductive JState | foreground | background | paused | dead
deriving DecidableEq, Repr

/-- A job: `proc` is `process is not None`. job.py 99-104 -/
structure Job where
  pid : Pid
  state : JState
  proc : Bool
deriving DecidableEq, Repr

/-- The main thread: waiting for a command, between starting a process and entering the job into the list, or in
`wait_for_idle_foreground`. -/
inductive PC
  | ready
  | spawned (j : Job)
  | waiting
deriving DecidableEq, Repr

structure Sys where
  jobs : List Job
  pc : PC
  alive : Pid → Bool
  stopped : Pid → Bool

/-- `check_alive` 195-198 -/
def checkAlive (alive : Pid → Bool) (j : Job) : Job :=
  if j.proc && alive j.pid then j else { j with state := .dead, proc := false }

/-- `JobControl.foreground` 285-290: the jobs are checked up to the first one in the foreground. The result: the jobs, and
the pid of that job. -/
def scan (alive : Pid → Bool) : List Job → List Job × Option Pid
  | [] => ([], none)
  | j :: js =>
    if (checkAlive alive j).state = .foreground then (checkAlive alive j :: js, some j.pid)
    else (checkAlive alive j :: (scan alive js).1, (scan alive js).2)

/-- `remove_completed` 322-327 -/
def removeCompleted (alive : Pid → Bool) (js : List Job) : List Job := js.filter fun j => j.proc && alive j.pid

def update (p : Pid) (f : Job → Job) (js : List Job) : List Job := js.map fun j => if j.pid = p then f j else j

def set (f : Pid → Bool) (p : Pid) (b : Bool) : Pid → Bool := fun q => if q = p then b else f q

/-- How a process reacts to `kill`: SIGTERM is enough, it takes SIGKILL, or neither works (116-124). -/
inductive Kill | term | kill9 | unable
deriving DecidableEq, Repr

/-- `Job.kill` 111-126: the job afterwards. -/
def killJob (how : Kill) (j : Job) : Job :=
  if j.state = .dead then j
  else { j with state := .dead, proc := if how = .kill9 then false else j.proc }

/-- `Job.pause` 136-141, the job afterwards. -/
def pauseJob (j : Job) : Job := if j.state = .paused ∨ j.state = .dead then j else { j with state := .paused }

/-- `run_in_background` 144-148 -/
def bgJob (j : Job) : Job := if j.state = .dead then j else { j with state := .background }

/-- `run_in_foreground` 151-161 (a dead job raises an exception, and nothing changes). -/
def fgJob (j : Job) : Job := if j.state = .dead then j else { j with state := .foreground }

inductive Ev
  | spawn (p : Pid)
  | append
  | jobsCmd
  | fg (k : Nat)
  | bg (k : Nat)
  | wait
  | exit (p : Pid)
  | ctrlC (how : Kill)
  | ctrlZ
deriving DecidableEq, Repr

/-- `Ctrl-C` 301-307: the foreground job is killed. -/
def ctrlC (s : Sys) (how : Kill) : Sys :=
  match (scan s.alive s.jobs).2 with
  | none => { s with jobs := (scan s.alive s.jobs).1 }
  | some p =>
    { s with
      jobs := update p (killJob how) (scan s.alive s.jobs).1
      alive := if how = .unable then s.alive else set s.alive p false }

/-- What a job's process gets from the handler: SIGCONT for those running in the background (318-320). -/
def contBackground (js : List Job) (stopped : Pid → Bool) : Pid → Bool :=
  fun p => if js.any (fun j => j.pid == p && j.state == .background) then false else stopped p

/-- `Ctrl-Z` 309-320. The terminal sends SIGTSTP to all processes, which stop; then the handler runs: it pauses the foreground
job and lets the background jobs continue. -/
def ctrlZ (s : Sys) : Sys :=
  match (scan s.alive s.jobs).2 with
  | none =>
    { s with
      jobs := (scan s.alive s.jobs).1
      stopped := contBackground (scan s.alive s.jobs).1 fun _ => true }
  | some p =>
    { s with
      jobs := update p pauseJob (scan s.alive s.jobs).1
      stopped := contBackground (update p pauseJob (scan s.alive s.jobs).1) fun _ => true }

/-- `fg` sends SIGCONT to a paused job (157-159), `bg` to every job that is not dead (146-148). -/
def fgCont (st : JState) : Bool := st == .paused
def bgCont (st : JState) : Bool := st != .dead

/-- `JobOp.setup` (jobop.py 44-50) and `action`: job number `k` of those still running. `cont` says whether the job is sent
SIGCONT. After a command, the main thread waits. -/
def jobOp (s : Sys) (f : Job → Job) (cont : JState → Bool) (k : Nat) : Sys :=
  match (removeCompleted s.alive s.jobs)[k]? with
  | none => { s with jobs := removeCompleted s.alive s.jobs, pc := .waiting }
  | some j =>
    { s with
      jobs := update j.pid f (removeCompleted s.alive s.jobs)
      stopped := if cont j.state then set s.stopped j.pid false else s.stopped
      pc := .waiting }

/-- One step. Commands are read only when the main thread is ready; an event that is not possible changes nothing. -/
def step (s : Sys) : Ev → Sys
  | .spawn p =>
    if s.pc = .ready ∧ p ∉ s.jobs.map (·.pid) then
      { s with pc := .spawned ⟨p, .foreground, true⟩, alive := set s.alive p true, stopped := set s.stopped p false }
    else s
  | .append => match s.pc with
    | .spawned j => { s with jobs := s.jobs ++ [j], pc := .waiting }
    | _ => s
  | .jobsCmd =>
    if s.pc = .ready then { s with jobs := removeCompleted s.alive s.jobs, pc := .waiting } else s
  | .fg k => if s.pc = .ready then jobOp s fgJob fgCont k else s
  | .bg k => if s.pc = .ready then jobOp s bgJob bgCont k else s
  | .wait =>
    if s.pc = .waiting then
      { s with
        jobs := (scan s.alive s.jobs).1
        pc := if (scan s.alive s.jobs).2 = none then .ready else .waiting }
    else s
  | .exit p => { s with alive := set s.alive p false }
  | .ctrlC how => ctrlC s how
  | .ctrlZ => ctrlZ s

def run (s : Sys) (evs : List Ev) : Sys := evs.foldl step s

/-- A shell that has just started. -/
def init : Sys := ⟨[], .ready, fun _ => false, fun _ => false⟩

end Marcel.Jobs
