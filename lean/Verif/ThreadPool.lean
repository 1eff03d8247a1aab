/-!
# Model of `slinky/base/thread_pool_impl.cc`: a transition system

One step is one atomic operation of one thread. Threads are numbered. The code that runs in a task body, or in a thread that is
not a worker, is arbitrary: at any time it can enqueue a task, wait for any task or for semaphores, signal semaphores, or return.

Simplifications:
* sequentially consistent atomics;
* a section that holds the mutex is one step if it touches nothing that another thread accesses without the mutex
  (`enqueue`, `atomic_call`); the loop of `wait_for` is split into steps;
* `all_work_started` reads all shards in one step (the shard counters only grow);
* counters are unbounded integers; `std::size_t` wrap-around is not modelled;
* `work_until_idle`, `run_worker` with another condition than `stop_`, and reference counts of tasks are not modelled.
-/

namespace Slinky.TP

/-- thread_pool_impl.h:28-72 `task_impl`: shards are pairs of the next iteration to run and the end. `n` and `init` are the
arguments of the constructor, for reference. -/
structure Task where
  n : Nat
  init : Int
  shards : List (Nat × Nat)
  todo : Int
  maxW : Int
deriving DecidableEq, Repr

/-- What a `wait_for` waits for: a task (thread_pool_impl.cc:241-256), semaphores with counts (evaluate.cc:252-273), or the end of
the pool (thread_pool_impl.cc:91-114). -/
inductive Cond where
  | task (t : Nat)
  | sems (l : List (Nat × Int))
  | stop
deriving DecidableEq, Repr

/-- Where a thread is in `wait_for` (thread_pool_impl.cc:159-190 and 241-256):
* `entry`: in `wait_for(task*)`, before `allocate_worker`;
* `direct`: in `wait_for(task*)`, in `work_on_task` (the frame above);
* `spin`: in `wait_for(task*)`, in the spin loop;
* `lock`: about to lock the mutex; `lockNotify`: the same, and then `cv_helper_.notify_all()`;
* `check`: holds the mutex, about to evaluate the condition;
* `deq pos`: holds the mutex, in `dequeue` at position `pos` of the queue;
* `nap`: holds the mutex, nothing to do;
* `asleep`: in `cv.wait`;
* `working`: in `work_on_task` (the frame above) without the mutex. -/
inductive WPC where
  | entry | direct | spin | lock | lockNotify | check
  | deq (pos : Nat)
  | nap | asleep | working
deriving DecidableEq, Repr

/-- The frames of the stack of a thread: `task_impl::work`, with the shards that are left, the local variable `done` and the
iteration that the body is running now (if any), or a `wait_for`. -/
inductive Frame where
  | work (t : Nat) (rem : List Nat) (done : Nat) (run : Option Nat)
  | wait (c : Cond) (pc : WPC)
deriving DecidableEq, Repr

/-- thread_pool_impl.h:74-88 the members of `thread_pool_impl`, the tasks (in the order of their creation), and the values of
the semaphores. `started`, `returned` and `completed` are records for the specification: the iterations that were started and that
returned, and the tasks for which `work` returned true. So are `semInit`, `semSig` and `semAcq`: the value that a semaphore was
initialized with, the sum of the signals and the sum of the counts of successful waits since then. -/
structure Pool where
  tasks : List Task
  queue : List Nat
  threads : List (List Frame)
  locked : Bool
  stop : Bool
  sems : Nat → Int
  started : List (Nat × Nat)
  returned : List (Nat × Nat)
  completed : List Nat
  semInit : Nat → Int
  semSig : Nat → Int
  semAcq : Nat → Int

/-- A pool that `threads` threads will use. -/
def Pool.initial (threads : Nat) (sems : Nat → Int) : Pool :=
  ⟨[], [], List.replicate threads [], false, false, sems, [], [], [], sems, fun _ => 0, fun _ => 0⟩

/-- thread_pool_impl.cc:13-23 the constructor of `task_impl`: shard `i` ends at `((i + 1) * n) / shard_count` and starts where
the shard before ends. -/
def mkShards (count n : Nat) : List (Nat × Nat) := (List.range count).map fun i => (i * n / count, (i + 1) * n / count)

/-- `std::numeric_limits<int>::max()` -/
def intMax : Int := 2 ^ 31 - 1

/-- thread_pool_impl.cc:217-228 `enqueue`: the task (a negative `max_workers` is converted to a large `std::size_t`). -/
def mkTask (n : Nat) (maxWorkers : Int) : Task :=
  let ordered := decide (maxWorkers < intMax)
  let mw : Int := if maxWorkers < 0 then n else min n maxWorkers
  let count := if ordered then 1 else (min 8 mw).toNat
  ⟨n, mw, mkShards count n, n, mw⟩

/-- thread_pool_impl.cc:58-71 `task_impl::work`: the order in which worker `w` visits the shards. -/
def shardOrder (w : Int) (count : Nat) : List Nat :=
  let i0 := w.toNat % count
  List.range' i0 (count - i0) ++ List.range i0

/-- thread_pool_impl.cc:82-89 `all_work_started` -/
def Task.allStarted (tk : Task) : Bool := decide (tk.todo = 0) || tk.shards.all fun s => !decide (s.1 < s.2)

/-- The effect of a notification on a frame that waits on `cv_helper_`. -/
def Frame.wakeHelper : Frame → Frame
  | .wait (.task t) .asleep => .wait (.task t) .lock
  | .wait (.sems l) .asleep => .wait (.sems l) .lock
  | f => f

/-- The effect of a notification on a frame that waits on `cv_worker_`. -/
def Frame.wakeWorker : Frame → Frame
  | .wait .stop .asleep => .wait .stop .lock
  | f => f

/-- `cv_helper_.notify_all()` -/
def wakeHelpers (ths : List (List Frame)) : List (List Frame) := ths.map (List.map Frame.wakeHelper)
/-- `cv_worker_.notify_all()` -/
def wakeWorkers (ths : List (List Frame)) : List (List Frame) := ths.map (List.map Frame.wakeWorker)
/-- `notify_one`: `k` is the thread that is chosen. -/
def wakeOne (f : Frame → Frame) (k : Nat) (ths : List (List Frame)) : List (List Frame) :=
  ths.set k ((ths[k]?.getD []).map f)

/-- Can this thread run user code now? It is running a task body, or it is a thread that is not in the pool. -/
def userCode : List Frame → Bool
  | [] => true
  | .work _ _ _ (some _) :: _ => true
  | _ => false

/-- Does the thread work on the task already (`task_stack`, thread_pool_impl.cc:118-129, 137)? -/
def onStack (t : Nat) (stk : List Frame) : Bool :=
  stk.any fun f => match f with
    | .work t' _ _ _ => decide (t = t')
    | .wait _ _ => false

/-- evaluate.cc:263-265 the check that all semaphores can be acquired. -/
def semsOk (sems : Nat → Int) (l : List (Nat × Int)) : Bool := l.all fun x => !decide (sems x.1 < x.2)

/-- evaluate.cc:266-269 and 244-248: add the counts, times `sign`, one after another. -/
def semsAdd (sign : Int) : List (Nat × Int) → (Nat → Int) → (Nat → Int)
  | [], f => f
  | (s, c) :: l, f => semsAdd sign l (fun x => if x = s then f x + sign * c else f x)

/-- The steps. The first argument is the thread. -/
inductive Act where
  /-- user code calls `enqueue(n, body, max_workers)`; the last two arguments are the threads that `notify_one` chooses. -/
  | enqueue (k n : Nat) (maxWorkers : Int) (wk hk : Nat)
  /-- user code calls `parallel_for(n, body, max_workers)` with `n > 1` and workers: `enqueue`, then `wait_for` that task. -/
  | parallelFor (k n : Nat) (maxWorkers : Int) (wk hk : Nat)
  /-- user code calls `wait_for(t)` -/
  | waitTask (k t : Nat)
  /-- user code waits for semaphores -/
  | semWait (k : Nat) (l : List (Nat × Int))
  /-- user code signals semaphores -/
  | semSignal (k : Nat) (l : List (Nat × Int))
  /-- user code initializes a semaphore -/
  | semInit (k s : Nat) (v : Int)
  /-- the destructor: `atomic_call([this]() { stop_ = true; })` -/
  | setStop (k : Nat)
  /-- `run_worker` -/
  | runWorker (k : Nat)
  /-- `allocate_worker` in `wait_for(task*)` -/
  | enter (k : Nat)
  /-- `this->i++` in `shard::work` -/
  | fetch (k : Nat)
  /-- the body returns -/
  | ret (k : Nat)
  /-- the end of `work`: `todo_ -= done` -/
  | finish (k : Nat)
  /-- the spin loop of `wait_for(task*)` sees the task done -/
  | spinDone (k : Nat)
  /-- the end of the spin loop of `wait_for(task*)` -/
  | spinEnd (k : Nat)
  /-- lock the mutex, and notify if a task was completed -/
  | lock (k : Nat)
  /-- evaluate the condition -/
  | check (k : Nat)
  /-- one iteration of `dequeue` -/
  | dequeue (k : Nat)
  /-- yield -/
  | yield (k : Nat)
  /-- `cv.wait` -/
  | sleep (k : Nat)
  /-- a spurious wake up -/
  | wake (k : Nat)
deriving DecidableEq, Repr

/-- thread_pool_impl.cc:217-239 `enqueue` -/
def Pool.enqueue (p : Pool) (n : Nat) (maxWorkers : Int) (wk hk : Nat) : Pool :=
  let tk := mkTask n maxWorkers
  { p with
    tasks := p.tasks ++ [tk]
    queue := p.queue ++ [p.tasks.length]
    threads :=
      if tk.init = 1 then wakeOne Frame.wakeHelper hk (wakeOne Frame.wakeWorker wk p.threads)
      else wakeHelpers (wakeWorkers p.threads) }

/-- thread_pool_impl.cc:210-215 `atomic_call`: the notifications. -/
def Pool.notifyAll (p : Pool) : Pool := { p with threads := wakeHelpers (wakeWorkers p.threads) }

/-- Replace the stack of a thread. -/
def Pool.setStk (p : Pool) (k : Nat) (stk : List Frame) : Pool := { p with threads := p.threads.set k stk }

/-- One step. `none`: not possible now.
`enqueue` and `parallelFor`: thread_pool_impl.cc:217-239 and thread_pool.cc:17-22; `waitTask`, `enter`, `spinDone`, `spinEnd`: 241-256 and
`task_impl::work()` 73-80; `semWait`, `semSignal`, `semInit`: evaluate.cc:227-273; `setStop`, `runWorker`: 91-114; `fetch`, `ret`: `shard::work`
44-56; `finish`: 70 and 120-127; `lock`, `check`, `yield`, `sleep`, `wake`: `wait_for` 159-190; `dequeue`: one iteration of 131-157. -/
def step (p : Pool) : Act → Option Pool
  | .enqueue k n mw wk hk =>
    match p.threads[k]? with
    | some stk => if userCode stk && !p.locked && decide (0 < n) then some (p.enqueue n mw wk hk) else none
    | none => none
  | .parallelFor k n mw wk hk =>
    match p.threads[k]? with
    | some stk =>
      if userCode stk && !p.locked && decide (0 < n) then
        let q := p.enqueue n mw wk hk
        some (q.setStk k (.wait (.task p.tasks.length) .entry :: stk))
      else none
    | none => none
  | .waitTask k t =>
    match p.threads[k]? with
    | some stk =>
      if userCode stk && decide (t < p.tasks.length) && !onStack t stk then some (p.setStk k (.wait (.task t) .entry :: stk)) else none
    | none => none
  | .semWait k l =>
    match p.threads[k]? with
    | some stk => if userCode stk then some (p.setStk k (.wait (.sems l) .lock :: stk)) else none
    | none => none
  | .semSignal k l =>
    match p.threads[k]? with
    | some stk =>
      if userCode stk && !p.locked then
        some { p with sems := semsAdd 1 l p.sems, semSig := semsAdd 1 l p.semSig }.notifyAll
      else none
    | none => none
  | .semInit k s v =>
    match p.threads[k]? with
    | some stk =>
      if userCode stk && !p.locked then
        some { p with
          sems := fun x => if x = s then v else p.sems x
          semInit := fun x => if x = s then v else p.semInit x
          semSig := fun x => if x = s then 0 else p.semSig x
          semAcq := fun x => if x = s then 0 else p.semAcq x }.notifyAll
      else none
    | none => none
  | .setStop k =>
    match p.threads[k]? with
    | some stk => if userCode stk && !p.locked then some { p with stop := true }.notifyAll else none
    | none => none
  | .runWorker k =>
    match p.threads[k]? with
    | some [] => some (p.setStk k [.wait .stop .lock])
    | _ => none
  | .enter k =>
    match p.threads[k]? with
    | some (.wait (.task t) .entry :: rest) =>
      match p.tasks[t]? with
      | some tk =>
        let w := tk.maxW - 1
        let q := { p with tasks := p.tasks.set t { tk with maxW := w } }
        if w ≥ 0 then
          some (q.setStk k (.work t (shardOrder w tk.shards.length) 0 none :: .wait (.task t) .direct :: rest))
        else some (q.setStk k (.wait (.task t) .spin :: rest))
      | none => none
    | _ => none
  | .fetch k =>
    match p.threads[k]? with
    | some (.work t (s :: rem) done none :: rest) =>
      match p.tasks[t]? with
      | some tk =>
        match tk.shards[s]? with
        | some (i, e) =>
          let q := { p with tasks := p.tasks.set t { tk with shards := tk.shards.set s (i + 1, e) } }
          if i < e then
            some ({ q with started := (t, i) :: p.started }.setStk k (.work t (s :: rem) done (some i) :: rest))
          else some (q.setStk k (.work t rem done none :: rest))
        | none => none
      | none => none
    | _ => none
  | .ret k =>
    match p.threads[k]? with
    | some (.work t rem done (some i) :: rest) =>
      some ({ p with returned := (t, i) :: p.returned }.setStk k (.work t rem (done + 1) none :: rest))
    | _ => none
  | .finish k =>
    match p.threads[k]? with
    | some (.work t [] done none :: .wait c pc :: rest) =>
      match p.tasks[t]? with
      | some tk =>
        let todo := if 0 < done then tk.todo - done else tk.todo
        let completed := decide (0 < done) && decide (todo = 0)
        let q := { p with
          tasks := p.tasks.set t { tk with todo := todo }
          completed := if completed then t :: p.completed else p.completed }
        match pc with
        | .direct => if completed then some (q.setStk k rest) else some (q.setStk k (.wait c .spin :: rest))
        | .working => some (q.setStk k (.wait c (if completed then .lockNotify else .lock) :: rest))
        | _ => none
      | none => none
    | _ => none
  | .spinDone k =>
    match p.threads[k]? with
    | some (.wait (.task t) .spin :: rest) =>
      match p.tasks[t]? with
      | some tk => if tk.todo = 0 then some (p.setStk k rest) else none
      | none => none
    | _ => none
  | .spinEnd k =>
    match p.threads[k]? with
    | some (.wait (.task t) .spin :: rest) => some (p.setStk k (.wait (.task t) .lock :: rest))
    | _ => none
  | .lock k =>
    if p.locked then none
    else match p.threads[k]? with
    | some (.wait c .lock :: rest) => some ({ p with locked := true }.setStk k (.wait c .check :: rest))
    | some (.wait c .lockNotify :: rest) =>
      some ({ p with locked := true, threads := wakeHelpers p.threads }.setStk k (.wait c .check :: rest.map Frame.wakeHelper))
    | _ => none
  | .check k =>
    match p.threads[k]? with
    | some (.wait (.task t) .check :: rest) =>
      match p.tasks[t]? with
      | some tk =>
        if tk.todo = 0 then some ({ p with locked := false }.setStk k rest)
        else some (p.setStk k (.wait (.task t) (.deq 0) :: rest))
      | none => none
    | some (.wait (.sems l) .check :: rest) =>
      if semsOk p.sems l then
        some ({ p with locked := false, sems := semsAdd (-1) l p.sems, semAcq := semsAdd 1 l p.semAcq }.setStk k rest)
      else some (p.setStk k (.wait (.sems l) (.deq 0) :: rest))
    | some (.wait .stop .check :: rest) =>
      if p.stop then some ({ p with locked := false }.setStk k rest)
      else some (p.setStk k (.wait .stop (.deq 0) :: rest))
    | _ => none
  | .dequeue k =>
    match p.threads[k]? with
    | some (.wait c (.deq pos) :: rest) =>
      match p.queue[pos]? with
      | none => some (p.setStk k (.wait c .nap :: rest))
      | some t =>
        match p.tasks[t]? with
        | none => none
        | some tk =>
          if tk.allStarted then some { p with queue := p.queue.eraseIdx pos }
          else if onStack t rest then some (p.setStk k (.wait c (.deq (pos + 1)) :: rest))
          else
            let w := tk.maxW - 1
            let q := { p with tasks := p.tasks.set t { tk with maxW := w } }
            if w < 0 then some { q with queue := p.queue.eraseIdx pos }
            else
              some ({ q with locked := false, queue := if w = 0 then p.queue.eraseIdx pos else p.queue }.setStk k
                (.work t (shardOrder w tk.shards.length) 0 none :: .wait c .working :: rest))
    | _ => none
  | .yield k =>
    match p.threads[k]? with
    | some (.wait c .nap :: rest) => some ({ p with locked := false }.setStk k (.wait c .lock :: rest))
    | _ => none
  | .sleep k =>
    match p.threads[k]? with
    | some (.wait c .nap :: rest) => some ({ p with locked := false }.setStk k (.wait c .asleep :: rest))
    | _ => none
  | .wake k =>
    match p.threads[k]? with
    | some (.wait c .asleep :: rest) => some (p.setStk k (.wait c .lock :: rest))
    | _ => none

/-- Run a list of steps. -/
def run (p : Pool) : List Act → Option Pool
  | [] => some p
  | a :: as => match step p a with
    | some q => run q as
    | none => none

end Slinky.TP
