# Formal model of tower-rs/tower in Lean 4 — design

The source is `/repo` (read as text, never run). The Lean project is `lean/`; models in
`lean/Verif/Model/`, helper lemmas in `lean/Verif/Proof/`, property statements in
`lean/Verif/Props/`.

## 1. Modelling framework (`Verif/Core.lean`)

* `Poll α` — `std::task::Poll`. `Out W α` — outcome of running code: `ok a w`, an explicit `panic`,
  or `spin` (a `loop` that exhausted the fuel given to the model, for loops with no bound in the code).
  `Act W α := W → Out W α` — a Rust function body run in a *world* `W`. `W` is a type parameter:
  it stands for everything outside the value (clock, wakers, shared state, peer behaviour).
* `Service W Req Res Err` — the `Service` trait: state type `σ`, future type `φ`, `pollReady`, `call`,
  `poll` (the future) and `clone`.
* A middleware is a function `Service → Service`, parametric in the inner service: every theorem
  about it is for every inner service, every world and every clock.
* The caller's environment is adversarial: in every trace each operation is run in an arbitrary,
  freshly chosen world.
* The contract (`Verif/Contract.lean`): `Safe cfg S s` says that no legal sequence of operations on
  handles and futures rooted in `s` panics (and, with `cfg.sticky`, that no poll_ready in ready mode
  returns Pending). A legal sequence calls only in ready mode, does not use a failed handle and does
  not poll a finished future. `Safe` of a *monitor* service that panics when misused is exactly
  "never calls an unready inner service".

Components with their own shared state (semaphore, channel, budget, ready cache, mock, ...) are modelled as
labelled transition systems with their own state, `step`, and histories as lists of labels; nondeterminism
(timer lateness, wake order, inner behaviour, random numbers) is in the labels.

## 2. Properties: model and proof

Every property of `properties.jsonl` is proved at full strength of its statement (`MANIFEST.json` names the theorems); where the code does
not do what its documentation suggests, the property says what the code does and the deviation is a theorem of its own (section 5).

| id | model (`lean/Verif/Model/`) | proof (`lean/Verif/Props/`) |
|----|-------|-------|
| C01-C03 | `Middleware`, `Util`, `Hedge`, `Buffer`, `Balance`, `Load`, `Layer` (make): each middleware as `Service → Service`; `Built` = inductive closure of all stacks | `C01_Contract`: invariants (`SafeInv`) equivalent to `Safe`; induction over the stack. Balance over any discovery (`Proof/Safety3`). Negative witnesses: Steer clone, Reconnect and Balance stickiness, closed semaphore |
| C04-C06 | `Semaphore`: FIFO semaphore, all clones, all futures, drops | invariant by induction on histories `LimHist` |
| C07-C08 | `Middleware` RateLimit with clock | histories `RateHist`; window counting; tightness witness |
| C09 | LoadShed over an arbitrary inner service | trace theorem |
| C10 | Timeout future, poll schedule with clock | induction over the schedule |
| C11-C12 | Retry call + ResponseFuture loop | the run of attempts is exactly the specified one (soundness and completeness) |
| C13-C16 | `Budget`: ring of slots; specification = ledger of entries with absolute slot numbers; atomic steps of concurrent withdrawals, with a record of the windows for runs with expiry | refinement; invariant |
| C17-C18 | `Backoff`: Duration as Nat ns, u32 saturating pow, jitter as any draw | arithmetic |
| C19-C25 | `Buffer`: bounded channel (semaphore), handles, worker with program counter, oneshots, response futures, drops, panics | `Proof/Buffer1-7`: invariants on all reachable states; termination measures for the drain theorems |
| C26-C29 | `ReadyCache`: IndexMap as list, FuturesUnordered with arbitrary order of polls | `Proof/Cache1-5`: invariant, refinement of a key-indexed specification |
| C30-C34 | `Balance` over `ReadyCache`, arbitrary discovery, load and random source | `Proof/Balance1-2` |
| C35-C36 | `Rng` | bijection, counting, bounds |
| C37, C38, C58 | `Load`: handles held by futures and responses; PeakEwma over ℝ | invariant on histories; analysis with `Real.exp` |
| C39-C40 | `Hedge` = Select(Latency, Delay(AsyncFilter(Latency))) as in the code | induction over the schedule |
| C41 | `Histogram`: rotation, u64/u32 arithmetic; the histogram itself is a multiset of recorded values | window lemma |
| C42-C43 | Reconnect loop over an arbitrary maker | history invariant; witnesses |
| C44 | SpawnReady with its background task | case analysis over the life of the task |
| C45-C47, C50, C52, C53, C56, C57 | `Util`, `Middleware`, `Layer` | induction over poll schedules, trace equivalence |
| C48-C49 | `CallAll` with `FuturesOrdered` and `FuturesUnordered` | `Proof/CallAll1`: invariant on histories |
| C51 | `Layer`: `Layer` as function, Stack, tuples, ServiceBuilder | algebra |
| C54 | `Layer`: ServiceList | induction |
| C55 | `Mock`: mocks, handle, channel, oneshots, mutex poisoning | `Proof/Mock1-2`: invariant on histories |
| C59 | all of the above with `Clock.arm`, `Runtime.arm` and a registration flag in the world (`Spec/WakeSpec.lean`) | `Proof/Wake1`: induction over the stack |
| C60 | `RetryBudget`: the documented policy, `Retry`, `TpsBudget` composed, shared by all clones | history invariant + C15 |
| C61 | `HedgeHisto`: `Hedge` with its `RotatingHistogram`, all requests sharing it, the service's calls and responses timed | history invariant, C41, potential argument for the number of calls |
| C62 | `BufferWake`: the buffer of C19 with the wakers kept by channel, oneshots and semaphore; the worker runs only when scheduled | invariants on who is registered where; a decreasing measure on the work of woken tasks; progress by cases on the program counter |
| C63 | `ShedLimit`: the composed stack with all its clones, futures, drops and caught panics, every operation being that of both middlewares' code | projection to the histories of C04, counting of reservations |
| C64 | no new model: `Buf` over an arbitrary service, over `RateLimit` and a service that logs its calls | an invariant ties the worker's program counter to what a lawful user knows; lawful use is projected to the histories of C07 |
| C65 | `Fleet`: a heap of semaphores, the layers, services, clones and futures that refer to them, `layer` and `with_semaphore` line by line | the part of a fleet history that belongs to one semaphore is a history of C04, to which C04-C06 apply |
| C66 | `StdLayer`: each XLayer with its fields; `Method`/`invoke`: each builder method | induction on the chain; the contract per layer from the theorems behind C01 |
| C67 | Balance over PendingRequestsDiscover / PeakEwmaDiscover, each endpoint with a shared state of its own in the world | every operation of the balancer only reads loads and appends fresh states (a relation that holds along ReadyCache, Balance, discovery), so the invariants of C37/C38 hold per endpoint in every history; then C33 |
| C68 | `ExpMaker`, `makeBackoff`, `ExpBackoff.next` with the generator of the model of rng.rs | induction on the number of delays, from the one step facts of C17 |
| C69 | `Retry<P, ConcurrencyLimit<S>>` run over the model of both middlewares with the real semaphore as part of the world, one step for each iteration of the retry loop | invariant: the clones in handles and in response futures with the attempts in flight form a history of the concurrency limit (C04), up to order; futures that are not about to retry hold nothing |
| C70 | `SpawnReady<ConcurrencyLimit<S>>` with the spawned tasks as part of the state: one step for each iteration of the loop of `poll_ready`, each poll of a task, abort, drop, shutdown | invariant: services in handles and tasks with the response futures form a history of the limit (C04), up to order; links between handles and tasks |
| C71 | `PeakEwma` with a rounding after every operation on `f64`; `IsF64` lists what is assumed of it, and is proved of IEEE 754 double precision | the invariant of C38 with the accumulated factor; error analysis of one update |
| C72 | the case distinction of `TpsBudget::new` and the casts of `ExponentialBackoff::jitter` with a rounding after every operation | error bounds for a truncated rounded number, then C15 and C68 |
| C73 | the histories of C04 with the wakers of the semaphore, `Model/LimWake` | invariant: the waiters with an assigned permit are exactly the woken ones; the place in the queue goes down with every release |
| C74 | the buffer's transition system with the limit's semaphore shared by worker and response futures, `Model/BufferLim` | refinement to `BHist` and to `LimWake`, invariant: the limit's futures that exist are those of dispatched requests not dropped (or about to be sent) |
| C75 | Model/CallAllLim: the CallAll loop of Model/CallAll over LimSvc with the queues releasing the permit of a future that is ready; other users step as in C73 | every poll_next is a sequence of steps of LimHist up to the order of handles and futures (Proof/LimTo), so the invariants of C04-C06 carry over; numbers of the ordered queue by an invariant |
| C76 | Model/HedgeLim: Select, Latency, Delay, AsyncFilter and Oneshot of Model/Hedge over LimSvc, with the permit of a hedge released when its Oneshot drops the future; other users step as in C73 | every step of the stack is a sequence of steps of LimHist up to the order of handles and futures (Proof/LimTo), so the invariants of C04-C06 carry over; an invariant on rejected hedges |
| C77 | Model/CacheDrop.lean: the operations of the cache and the balancer with every drop of a service explicit; Model/Named.lean: named services and a ledger, histories | a frame theorem (Proof/Linear.lean): every relation between the services that exist and the world that polling, calling and dropping one service keeps is kept by every operation of the cache and the balancer; induction over histories |
| C78 | Model/BalLim.lean: the balancer of Model/CacheDrop.lean over endpoints that are or are not under the limit, histories with other users | the frame theorem of C77 with the relation `there is a history of the limit with these handles and futures` (Proof/LimTo.lean), and an invariant on ready endpoints (Proof/Linear2.lean) |
| C79 | Model/EwmaThreads.lean: steps of `Drop for Handle` (clock; locked update; release) and of `load` (count; locked decay) interleaved | invariant over histories; the estimate is a fold of the log |
| C80 | Model/Over.lean: an inductive family of stacks over the modelled middleware, where the limit's handle and future are in the state, and all histories of the stack | every operation of the stack is at most one operation of the limit (induction over the stack); the stack's histories project to LimHist |
| C81 | `Act.Returns`: the code does not run out of fuel in any world. `PStack` is the inductive family of stacks; induction over it, with a rank for each loop (pending endpoints for `poll_pending`, ready endpoints for the choice loop of the balancer, retries left). The `loop`s the model unrolls are modelled iteration by iteration in `Model/Loops.lean` and proved equal to the unrolled code. |
| C82 | `FutureOf S q f`: `f` came from a call with `q` and was polled pending any number of times. `Replies S A Z`: results of such futures are in `A q`, readiness errors in `Z`. One closure lemma per middleware, by an invariant of its response future (`AnsW`); induction over the inductive families `AStack` (with computed `A`, `Z`) and `TStack` (transparent middleware). Buffer: from C20 and C21. |
| C83 | Ghost state: the request log and a proof that the state is reached by lawful use ride along in the invariant of the wrapped service; then Built.contract. Rate limit: Uses.rate and C07_window. |
| C84 | Spec/SendsSpec.lean: Sends (with a potential: what a response future may still send), PartyRun (histories), Records, Limited. Proof/Sends.lean, Sends2.lean: each middleware, by weakest preconditions. Props/C84_Sends.lean: stacks by induction; C84_copies instantiates the weight with one request. |
| C85 | Model/BufferSvc.lean: ChanView (the channel as one handle sees it), BufferSvc, bufView (the channel of a Buf as part of an arbitrary world). Props/C85_BufferStack.lean: invariants for each of the predicates of C01, C59, C81, C82, C84, so that their any-stack theorems apply above a buffer; step-by-step correspondence with HStep and FStep of Model/Buffer.lean. |
| C86 | Model/Spawn.lean; histories SpRun project to those of C55 (C86_is_mock); invariant relating flags, registered wakers and the record. |
| C87 | Spec/AlikeSpec.lean (observations of lawful users); Proof/Alike.lean: equality of all observations gives a bisimulation and conversely; Proof/AlikeMw.lean: each middleware lifts bisimulations; Proof/AlikeMake.lean: so do Reconnect and FutureService, with services that are made later, and Steer; Proof/AlikeCall.lean: the streams of call_all (Spec/StreamSpec.lean); Proof/AlikeLoad.lean: load tracking; Proof/AlikeBal.lean: the cache of services and the balancer. Demo87 has two different services that are the same, and two that are not. |
| C88 | Bisimulations between the two stacks (Proof/Alike.lean), C88_anywhere from C87. |
| C89 | Liveness: Ends is an inductive predicate on infinite sequences of worlds (Spec/LiveSpec.lean). Each middleware is simulated by what it waits for (Finishes.sim), with a lexicographic measure for Retry and the scheduling of the background task for SpawnReady (Proof/Live*.lean). |
| C90 | Drains is inductive on infinite sequences of worlds (Spec/LiveAllSpec.lean). Each request has a rank (4 in the stream, 3 at hand, 2 with the service, 1 answered out of turn); a poll that returns lowers the total or changes nothing; in an infinite run of polls that change nothing one thing (service, stream or oldest future) is polled infinitely often, each time Pending (track, Proof/LiveAll1.lean, flattens the polls to one sequence of worlds), against Finishes. FuturesOrdered keeps its indices sorted, so the oldest future is the one next in turn (OrdAt). |
| C91 | (1): an invariant of the abstract cache of C26: the newest service of a key waits, or is ready with none waiting in its place (View.Kept), kept by every step. (2): in a poll that changes nothing the oldest waiting endpoint is polled when its turn comes; the number of waiting endpoints does not grow when nothing is discovered and StaysReady holds; so from some time on it is constant, and an endpoint would be polled infinitely often, each time Pending, against NeverHangs. (3): what does not end is pending forever (not_ends); discovery, bounded, comes to rest; (1) against (2). |
| C92 | Model: Model/Buffer.lean and Model/BufferWake.lean as they are; infinite executions over them in Spec/BufferLiveSpec.lean. Proof: a measure (requests up to number i in the channel, then the worker's place in its code) that no step increases and that every step of the worker decreases, except the loop park - poll - not ready; so from some time on only that loop is left, and then the inner service is polled for ever in an unchanged use, which NeverHangs excludes. That the worker does not sleep without a reason is the wake-up invariant of C62. |
| C93 | By contradiction: a waiter that is never told `Ready` stays in the queue of the semaphore (a granted slot is not lost, a closed channel wakes all), where nobody overtakes it, and all slots are in use: granted, reserved or in messages. A granted handle was woken and polls; a reserved one calls; a message is received (`no_eternal_wait` of C92). Each of these, or a drop, moves the waiter forward, which cannot happen for ever. |
| C94 | A waiter stays in the queue of the semaphore or was assigned a permit; if assigned, it was woken (C73) and its poll takes the permit. In the queue nobody overtakes it (`LimStep.move`). If from some time on no permit were given up, there would be no response futures, then no holders, then no assigned permits, so all permits would be available and nobody would wait. |
| C95 | C93 grants the slot, the users' fairness gives the call, C92 the dispatch and the answer. For the balancer, the states in which the worker polls it are reachable by lawful use (C64), so C34, C30 and C91_never_hangs apply. |
| C96 | Histories of the stack project to those of RateLimit (C07) with the invariant that LoadShed's flag is set only if the limit is not in State::Limited; then the period invariant of C07/C08 decides when poll_ready of the limit is pending. |
| C97 | The handle of C85 over the channel of a Buf in any of its histories; the conservation of slots (C19) decides when reserving a slot is pending; an invariant says that LoadShed's flag is set only with a slot reserved. |
| C98 | Bisimulations as in C88; for the rate limit, induction on the operations with the number of calls still to come below what is left of the period. |

Each property file shows, beside its theorems, concrete cases that meet their hypotheses (`example`s and `Demo` namespaces).

## 3. Trusted base

* Lean 4.33.0's kernel.
* Axioms: every theorem named in `MANIFEST.json` depends on a subset of `propext`, `Classical.choice`, `Quot.sound` (checked with
  `#print axioms` for all of them: of 545, 34 need none, 37 only `propext`, 154 `propext` and `Quot.sound`, 320 all three). No other axioms,
  no compiled evaluation; `decide +kernel` appears in demonstrations only and is evaluated by the kernel.
* The reading of the Rust source, recorded in the comment of each definition with file and lines.
* The libraries tower builds on are not in the sandbox. What is assumed of them:
  * tokio `Semaphore`/tokio-util `PollSemaphore`: permits go to waiters in FIFO order, a released permit goes to the first waiter, dropping a waiter that has been given
    a permit passes it on, `poll_acquire` of an open semaphore never returns `None`. For C73 and C59: a waiter that is assigned a permit is woken.
  * tokio `mpsc` (bounded) and tokio-util `PollSender`: capacity is a semaphore as above; messages arrive in the order in which they are sent; closing stops new
    reservations but not sends through slots already reserved; the receiver yields `None` once closed and idle, or without senders; dropping the receiver drops the messages.
  * tokio `oneshot`: at most one value; the receiver sees an error if the sender is dropped.
  * tokio `Sleep`: never fires before its deadline, stays fired; it may be late. `tokio::spawn`/`JoinHandle`: the task is polled at arbitrary times; the handle yields its output.
  * futures `FuturesUnordered`: polls any subset of its futures in any order, removes a future that is ready and yields its output; yields `None` iff empty. `FuturesOrdered`: yields the
    outputs in the order of insertion. For C59: a non-empty `FuturesUnordered` that returns `Pending` has registered the waker.
  * `indexmap`: insertion order; `swap_remove` moves the last entry into the gap.
  * `hdrhistogram`: `record` adds a value (saturating is not modelled), `len` counts, `value_at_quantile` is any function of the recorded values.
  * `std`: `Arc::strong_count`, `Mutex` with poisoning, `Instant` monotone where a theorem says so; `Duration` as natural numbers of nanoseconds with `checked`/`saturating`/panicking operations as documented.
* `f64` is idealised as ℝ in C38 and C67; C71 proves the same with the rounding of IEEE 754 double precision. What C71 assumes of `f64` is the structure `IsF64` of `Model/Float.lean` (proved of IEEE 754 in `C71_ieee`, with `exp` correctly rounded; for another `exp`, that it maps numbers not above 0 to `f64`s from 0 to 1 is assumed). The percentage of a budget and the jitter of a backoff are exact rationals in C15, C17, C68; C72 has them with the rounding of `f32` and `f64` (`IsRounding`, proved of IEEE 754 in `C71_rounding`). Elsewhere only comparisons, casts and integer-valued floats are used and treated exactly (C18, C36).

## 4. Modelled, and not modelled

Modelled: everything that has an effect in `tower/src/{balance,buffer,builder,discover,filter,hedge,limit,load,load_shed,make,ready_cache,reconnect,retry,spawn_ready,steer,timeout,util}`,
`tower-layer/src`, `tower-service/src` and `tower-test/src/mock`, with the simplifications recorded at each definition. In general:

* A call of one function of the code is one step of the model, except in the models of concurrent code: the buffer (steps of the worker between its shared accesses) and concurrent
  use of `TpsBudget` (single atomic operations). Reading the load of an endpoint is one step.
* Compositions that are modelled as they stand, with the code of both middlewares and their shared state, including drops, aborts and caught panics: `LoadShed` over
  `ConcurrencyLimit` (C63), `Buffer` over any service and over `RateLimit` (C64), the services of one limit layer (C65), builder chains (C66), `Balance` over tracked loads (C67), `Retry` with its
  budget (C60) and over `ConcurrencyLimit` (C69), `SpawnReady`, `Buffer`, `CallAll`, `Hedge` and `Balance` over `ConcurrencyLimit` (C70, C74, C75, C76, C78; in C77 and C78 steps in which an endpoint panics are left out), `Hedge` with its histogram (C61). Other compositions follow from the contract theorems (C01, C66).
* Between two steps the world changes arbitrarily (adversarial environment); user code (inner services, policies, predicates, pickers, discovery) is an arbitrary function of the world and may
  panic where the type says so.
* Loops with no bound in the code take fuel and `spin` when it is used up; theorems about results hold for every amount of fuel, and where the loop does terminate, a theorem says so
  (`C24_poll_terminates`, `C34_returns`, `C48_returns`, ...).

Not modelled: pinning and memory safety, `Send`/`Sync` and other type level matters, tracing, `Debug`/`Display` texts, error types beyond their variants (errors are compared as values, `BoxError`
conversions are sums), performance, `Weight`/`Count`/`Cost` arithmetic of user defined loads, panics caused by exhausted memory, OS threads outside the concurrent models named above, weak memory
(the atomics in question are `SeqCst`), feature flags.

Every `expect`, `unwrap`, `panic!` and assertion of the code outside its tests, and what is proved of it. `debug_assert!`s count as assertions (a debug build). Under *contract* the theorem
is C01: in any stack a caller that polls to readiness before each call, does not use a failed service and does not poll a completed future meets no panic that is not the user's own code's.

| where (tower/src) | panic | theorem |
|---|---|---|
| ready_cache/cache.rs:294, 307, 354, 369 | every pending service has a cancellation; an index that `check_ready_index` accepted is valid | C26_no_assert_fails, C29_check_index |
| ready_cache/cache.rs:384, 397 | `call_ready*` without a check | panics exactly then: C29_call_index, C29_call_key |
| ready_cache/cache.rs:445–478 | `Pending` polled after completion | completed futures leave the set in the model, as in `FuturesUnordered` (assumed); 466: a cancellation needs `&mut` of the cache, excluded by the types |
| balance/p2c/service.rs:136, 141, 167, 188, 245 | pending/ready counts, distinct indices, valid index | C30_no_panic, C35_distinct |
| balance/p2c/service.rs:254 | `call` before ready | panics exactly then: C30_call_panics |
| util/rng.rs:45, 121 | empty range, fewer than two to sample from | C35_distinct, C36_range (the balancer samples only from two or more: C30_no_panic) |
| util/oneshot.rs:62, 93, 101, util/ready.rs:47, 50 | polled after completion | C50_oneshot, C50_ready_oneshot (once complete); contract |
| util/future_service.rs:169 | `call` before ready | panics exactly then: C53_call_early; contract |
| util/call_all/common.rs:66–138 | service taken, `unordered` after a poll | C48_taken, C48_unordered_panics, C48_unordered_new |
| retry/backoff.rs:136–194 | jitter and overflow of the backoff | C17_no_panic, C17_can_panic, C68_panics_iff, C72_panics_iff, C68_default |
| retry/budget/tps_budget.rs:71–75, 159 | arguments of the constructor; a negative withdrawal | hypotheses of C13–C16, C72; amounts are the constants of the constructor |
| retry/budget/tps_budget.rs:115, hedge/mod.rs:120–260, load/peak_ewma.rs:157, buffer/worker.rs:122, 214 | poisoned mutex | no user code runs under these locks and what runs under them does not panic (C16, C41, C61, C71, C79_no_panic, C19) |
| retry/future.rs:111 | no cloned request | contract (C11_run, C12_uncloned: without a clone there is no retry) |
| load/completion.rs:81 | handle taken twice | C37_on_response; contract |
| load/peak_ewma.rs:94, 220, 238, 247 | time running backwards, decay not positive | C38_bounds, C71_bounds, C79_no_panic; C38_overflow: reference count arithmetic |
| steer/mod.rs:159 | `call` before all services are ready | panics exactly then: C45_call_unready, C45_call_all_ready; a picked index out of range is the picker's |
| hedge/delay.rs:115, 116 | request or service taken twice | contract |
| hedge/rotating_histogram.rs:24, 25 | constant parameters | valid parameters, not modelled |
| buffer/future.rs:68, buffer/worker.rs:195 | polled after error; failure not recorded | C85_contract; C22 and C19 (a failed worker has its error) |
| spawn_ready/service.rs:63, 67, 85 | illegal state; `call` before ready | C44_call, C01_background; contract |
| limit/rate/rate.rs:17, 18, limit/rate/service.rs:116 | arguments of the constructor; `call` before ready | hypothesis; contract, C96_no_panic |
| limit/concurrency/service.rs:70, 87 | semaphore closed; `call` before ready | the semaphore is never closed (Demo.C01_closed_semaphore_violates: the assertion would fail if it were); contract, C04_no_permit_no_call, C63_no_panic |
| reconnect/mod.rs:149, reconnect/future.rs:68 | `call` before ready; polled after completion | contract, C42_lifecycle, C43_report |
| tower-test mock/mod.rs | `call` before ready, poisoned mutex, failed assertions of the test macros | C55_call, C55_poisoned, C86 |

## 5. Findings

Deviations between documentation or evident intent and behaviour, each a theorem or a checked example:

* `Steer::clone` copies `not_ready`: a clone of a ready Steer counts as ready although its own copies of the services were never polled (`Demo.C03_steer_clone_violates`).
* `Reconnect` is not sticky: after ready it can report Pending again (`Demo.C02_reconnect_violates`); it can report an error that belongs to an earlier attempt, or lose one (`Demo42.C43_stale_error_violates`,
  `Demo42.C43_lost_error_violates`).
* `ConcurrencyLimit` over a semaphore that the user has closed reports ready without a permit, and the call panics (`Demo.C01_closed_semaphore_violates`).
* `RateLimit` admits up to `2·num` calls in one window of length `per`, and no more (`C07_window`, `C07_tight`).
* `TpsBudget` forgets deposits after little more than half of `ttl` (`Demo13.C14_forgets_early`); percentages in (0.5, 1] act as 100% (`Demo13.C15_half_is_all`); percentages below 1/`isize::MAX` make the saturated reserve worth a single retry (`C15_tiny_percent`); concurrent expiry breaks the bound on overdrafts
  (`C16_expiry_violates`).
* `ExponentialBackoff`: no jitter for a base of exactly one second (`C17_one_second_no_jitter`); extreme settings panic in `Duration::new` (`C17_can_panic`).
* `ExponentialBackoffMaker::make_backoff` clones the generator and leaves its own as it is: all sessions of a maker have the same jitter (`C68_sessions_repeat`); a clone of an `ExponentialBackoff` is not reset,
  against the documentation of `Backoff` (`Demo68.C68_clone_not_reset`).
* `AsyncFilter::layer` (filter/mod.rs:134) returns a `FilterLayer`, which makes a `Filter` (see C66).
* `Rng::next_f64` can be 0.0 (`C36_f64_zero`), against the `debug_assert!` in its tests.
* `RotatingHistogram`: the number of rotations is truncated to `u32` (`C41_truncation_violates`), a zero period panics (`C41_zero_period_panics`).
* `Buffer`: a message sent through a slot reserved before the worker's task died is never answered while any handle lives (`C25_hang_violates`, `C25_hang_reachable`).
* `ReadyCache`: `len` counts cancelled futures that have not been polled; an older ready service outlives a newer one that fails.
* `Balance`: after an eviction the kept index can stand for another endpoint, even the most loaded one, against the comment at service.rs:210-212 (`BalanceDemo.C33_stale_index`); with ended discovery and no endpoints
  it returns Pending with no waker registered (`C59_balance_stuck`).
* `PeakEwma`: the strong count is truncated to `u32`; with 2^32−1 requests in flight reading the load panics (`C38_overflow`).
* A service that holds capacity it has not yet used blocks others: a handle of `SpawnReady` whose spawned task has finished keeps the permit although nobody polls it (`Demo70.C70_unpolled_holds`), and so does a handle
  or a clone about to retry that has been polled ready (`Demo69.C69_idle_handle_blocks`), a `CallAll` that ended because its service failed (`Demo75.C75_failure_keeps_permit`), and the future of a request whose
  hedge the policy rejected (`C76_rejected_keeps_permit`, `Demo76.C76_rejected_blocks`); an idle balancer keeps a permit for each of its ready endpoints, not only the chosen one (`Demo78.C78_idle_balancer_blocks`).
* `load_shed` over `buffer`: a clone that was shed once and is then kept without being used comes to hold a slot of the buffer; with bound 1 every request of the other handles is shed although the buffer is empty (`Demo97.idle_clone_blocks`).
* `Hedge`: if the second instance fails to become ready, the request fails although the original is still running and the policy would not even have sent the hedge (`Demo39.C40_unsent_hedge_fails_request`).
* `SpawnReady`: after a failure of the background task `poll_ready` panics, it does not repeat the error (`C44_failure_final`).
* Three polls can keep their caller in a loop for ever although everything they call returns: `Reconnect::poll_ready` while the maker connects at once and the connection fails at once (`DemoRet.C81_reconnect_spins`;
  no error is ever reported), `SpawnReady::poll_ready` while the task is ready and the service is not (`DemoRet.C81_spawn_ready_spins`), `CallAll::poll_next` while stream and service are ready (`DemoRet.C81_call_all_spins`).
* `CallAll`: a readiness error overtakes responses in flight even in ordered mode (`CallAllDemo.C48_failure_overtakes`); `unordered()` can lose a request (`CallAllDemo.C49_unordered_loses`).
* `Mock`: with clones `allow(n)` admits more than `n` (`MockDemo.C55_clones_exceed`), at most `n` plus the number of clones (`C55_allow_most`); the branch marked "TODO: Can this be reached" cannot be (`C55_call`).

## 6. Testing the theorems

`seeded/LOG.jsonl` records, for edits of the model in a scratch copy that mimic bugs, which theorems no longer prove.
