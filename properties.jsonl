{"id": "C01", "title": "Middleware never calls an unready inner service", "statement": "If a caller of a tower middleware obeys the Service contract (call only after the latest poll_ready returned Ready(Ok), never poll a finished future, stop after poll_ready returned an error), then the middleware obeys the same contract towards the service it wraps, and never panics; hence any finite stack of middlewares over a well-behaved service is well-behaved.", "quantifier": "every stack of middlewares of any depth, every inner service, every interleaving of poll_ready/call/future polls, every clock and environment behaviour", "why_tests_cant": "A test drives one stack through one schedule; the contract must hold for all stacks, inner behaviours and interleavings.", "anchors": ["tower-service/src/lib.rs:Service", "tower/src/limit/rate/service.rs:RateLimit", "tower/src/load_shed/mod.rs:LoadShed", "tower/src/timeout/mod.rs:Timeout", "tower/src/filter/mod.rs:Filter", "tower/src/util/either.rs:Either", "tower/src/util/optional/mod.rs:Optional", "tower/src/util/map_response.rs", "tower/src/util/and_then.rs", "tower/src/util/then.rs", "tower/src/retry/future.rs:ResponseFuture", "tower/src/limit/concurrency/service.rs:ConcurrencyLimit"]}
{"id": "C02", "title": "Readiness is sticky through middleware", "statement": "If the inner service keeps reporting ready once it has reported ready (until call), so does the middleware around it: after poll_ready returned Ready(Ok), polling again before call never returns Pending. This is false for Reconnect and Balance.", "quantifier": "every inner sticky service, every sequence of repeated poll_ready calls and clock readings", "why_tests_cant": "Needs all sequences of repeated polls against all inner services; tests poll once or twice.", "anchors": ["tower-service/src/lib.rs:Service::poll_ready", "tower/src/reconnect/mod.rs:Reconnect", "tower/src/balance/p2c/service.rs:Balance", "tower/src/limit/rate/service.rs"]}
{"id": "C03", "title": "A clone of a service starts out not ready", "statement": "Cloning any stack of middlewares other than Steer gives an independent handle that obeys the contract on its own: no handle, however many times cloned and at whatever point, calls its own inner service before that handle's inner service was polled ready. (Steer is excluded because its clone copies the readiness queue, and an execution shows that its clone does call services that were never polled.)", "quantifier": "every middleware, every state at which it is cloned, every later use of original and clones", "why_tests_cant": "Clone points are arbitrary states inside a history; a test clones at a few fixed points.", "anchors": ["tower/src/steer/mod.rs:Steer", "tower/src/load_shed/mod.rs:LoadShed", "tower/src/limit/concurrency/service.rs:ConcurrencyLimit::clone"]}
{"id": "C04", "title": "ConcurrencyLimit bounds requests in flight", "statement": "With a limit of max, the number of calls accepted by all clones of a ConcurrencyLimit together whose response futures have not been dropped, plus the clones that currently hold a readiness permit, never exceeds max.", "quantifier": "every max, number of clones, clone point, and interleaving of poll_ready, call, future drop and service drop", "why_tests_cant": "All interleavings over an unbounded number of clones.", "anchors": ["tower/src/limit/concurrency/service.rs:ConcurrencyLimit", "tower/src/limit/concurrency/future.rs:ResponseFuture"]}
{"id": "C05", "title": "Concurrency permits are conserved", "statement": "Permits are never lost or duplicated: available + held by clones + held by futures + granted to waiters = max at every point, whatever futures or clones are dropped (cancelled) at whatever point; when everything is dropped all max permits are available again.", "quantifier": "every history with drops at every point", "why_tests_cant": "Cancellation can happen at any await point; tests cancel at a few.", "anchors": ["tower/src/limit/concurrency/service.rs", "tower/src/limit/concurrency/future.rs"]}
{"id": "C06", "title": "ConcurrencyLimit is FIFO and work conserving", "statement": "Waiting clones get permits in the order in which they first waited, a newcomer never overtakes a waiter, and no permit stays free while a clone waits.", "quantifier": "every history of clones polling, calling, dropping", "why_tests_cant": "Ordering over every interleaving.", "anchors": ["tower/src/limit/concurrency/service.rs:ConcurrencyLimit::poll_ready"]}
{"id": "C07", "title": "RateLimit bounds calls in any time window", "statement": "With rate num per `per`, any time interval of length k*per (half-open) contains at most (k+1)*num calls passed to the inner service, however the caller polls and however late timers fire; 2*num in one sliding window of length per is attainable, so the bound is tight.", "quantifier": "every num, per, k, window start, and every timed schedule of poll_ready/call", "why_tests_cant": "Sliding windows over every timed schedule.", "anchors": ["tower/src/limit/rate/service.rs:RateLimit"]}
{"id": "C08", "title": "RateLimit admits num calls per period and refuses only when they are used", "statement": "Calls are grouped in consecutive disjoint periods of length at least `per`, each with at most num calls; poll_ready is Pending because of the limit only if num calls were already made in the current period; and once the timer fired, num calls are available again.", "quantifier": "every timed schedule", "why_tests_cant": "All timed schedules, including timers that fire late.", "anchors": ["tower/src/limit/rate/service.rs:RateLimit::poll_ready", "tower/src/limit/rate/service.rs:RateLimit::call"]}
{"id": "C09", "title": "LoadShed is always ready and sheds exactly when the inner service is not ready", "statement": "LoadShed's poll_ready never returns Pending; a call is forwarded to the inner service exactly when the most recent poll_ready found it ready and no call consumed that readiness since; otherwise the call yields Overloaded and the inner service is not touched.", "quantifier": "every inner service and history of poll_ready, call, clone", "why_tests_cant": "History-dependent forward/shed decision over all histories.", "anchors": ["tower/src/load_shed/mod.rs:LoadShed", "tower/src/load_shed/future.rs:ResponseFuture"]}
{"id": "C10", "title": "Timeout outcome law", "statement": "A call through Timeout completes with the inner result exactly if the inner future is ready at a poll (even at or after the deadline, since it is checked first); it completes with Elapsed only at a poll where the inner is pending and at least `timeout` has passed since call; otherwise it stays pending.", "quantifier": "every inner future, poll schedule and clock", "why_tests_cant": "Race between two events at every possible poll schedule.", "anchors": ["tower/src/timeout/mod.rs:Timeout", "tower/src/timeout/future.rs:ResponseFuture"]}
{"id": "C11", "title": "Retry attempts equal one plus the approved retries", "statement": "The number of inner calls for one request through Retry is exactly one plus the number of times the policy approved a retry whose readiness then succeeded; the final result is the result of the last attempt (as possibly rewritten by the policy) or a readiness error; without approval the result is returned unchanged.", "quantifier": "every policy, inner service, request, and number of retries (unbounded)", "why_tests_cant": "Unbounded retry loops with arbitrary stateful policies.", "anchors": ["tower/src/retry/mod.rs:Retry", "tower/src/retry/future.rs:ResponseFuture", "tower/src/retry/policy.rs:Policy"]}
{"id": "C12", "title": "Retry waits for readiness before each attempt and never retries an uncloneable request", "statement": "Every retry attempt is preceded by the inner service reporting ready since the previous attempt; a readiness error ends the request with that error; if the policy cannot clone the request then there is at most one attempt and the policy is not consulted.", "quantifier": "every policy, inner service and schedule", "why_tests_cant": "All schedules.", "anchors": ["tower/src/retry/future.rs:ResponseFuture::poll"]}
{"id": "C13", "title": "TPS retry budget equals a ledger of recent deposits and withdrawals", "statement": "The balance of a TpsBudget equals the initial reserve plus the sum of the deposits and withdrawals whose time slot is still in its ring window; a withdrawal is granted exactly if this ledger balance covers it.", "quantifier": "every sequence of timed deposits and withdrawals, every ttl", "why_tests_cant": "Circular buffer index arithmetic over every timed history.", "anchors": ["tower/src/retry/budget/tps_budget.rs:TpsBudget::expire", "tower/src/retry/budget/tps_budget.rs:Bucket", "tower/src/retry/budget/tps_budget.rs:TpsBudget::sum"]}
{"id": "C14", "title": "Lifetime of a deposit in the budget", "statement": "An entry younger than ttl/2 is always counted and an entry older than 1.1 ttl is never counted; the documented lifetime `ttl` is not exact: an entry can be forgotten before ttl.", "quantifier": "every timed history", "why_tests_cant": "Depends on the gaps between operations in every history.", "anchors": ["tower/src/retry/budget/tps_budget.rs:TpsBudget::expire", "tower/src/retry/budget/tps_budget.rs:TpsBudget::new"]}
{"id": "C15", "title": "Retry storm bound", "statement": "Whenever a withdrawal is granted at time t, withdrawals in the last ttl/2 cost in total no more than the reserve plus all deposits of the last 1.1 ttl: retries are bounded by a share of recent requests plus the min_per_sec reserve. For a retry_percent of at most 1 the share is at least retry_percent and less than twice retry_percent (it is rounded up to 1/n; everything above 0.5 acts as 1). So with retry_percent p, the retries granted in any ttl/2 are at most min_per_sec per second of ttl plus 2p times the requests of the last 1.1 ttl; none beyond min_per_sec for p = 0. Conversely a retry is granted whenever it and those granted during the last 1.1 ttl are at most min_per_sec per second of ttl plus p times the requests of the last ttl/2 (unless amounts exceed an isize: a percentage below 1/isize::MAX leaves a reserve worth one retry). new accepts exactly ttl of 1 to 60 s, p from 0 to 1000 and min_per_sec below i32::MAX.", "quantifier": "every timed history of any length", "why_tests_cant": "Needs a bound over every load pattern.", "anchors": ["tower/src/retry/budget/tps_budget.rs:TpsBudget::withdraw", "tower/src/retry/budget/tps_budget.rs:TpsBudget::deposit"]}
{"id": "C16", "title": "Concurrent withdrawals overdraw by at most one each", "statement": "If N threads withdraw from a TpsBudget concurrently (non atomic check-then-act) within one time slot, the balance never drops below -(N-1) withdrawals; with concurrent slot expiry this bound does not hold. Within one slot each withdrawal is answered according to the balance at one moment between its start and its answer: granted only if the balance was enough then, refused only if it was not; and no update is lost: the balance is the initial one plus the deposits made minus the withdrawals granted. With expiry, in every interleaving: the balance is the reserve plus all deposits made minus all withdrawals granted, less the windows older than the ring and less at most one window that is just being moved into the ring; each update is in exactly one window.", "quantifier": "every number of threads and every interleaving of the atomic steps", "why_tests_cant": "All interleavings of atomics with arbitrarily many threads.", "anchors": ["tower/src/retry/budget/tps_budget.rs:TpsBudget::try_get"]}
{"id": "C17", "title": "Exponential backoff bounds", "statement": "Without jitter each successive delay is min*2^i capped at max (while 2^i fits in u32) and the sequence is monotone; with jitter each delay stays within [min, max] and the jitter is at most base*jitter; no overflow unless the jittered seconds exceed a u64 (possible for extreme values). Whole-second bases get only whole-second jitter: at a base of one second and a ratio below one there is none.", "quantifier": "every min<=max, jitter, iteration count and random number", "why_tests_cant": "All parameters, including saturation of the power and duration overflow.", "anchors": ["tower/src/retry/backoff.rs:ExponentialBackoff::base", "tower/src/retry/backoff.rs:ExponentialBackoff::jitter", "tower/src/retry/backoff.rs:ExponentialBackoff::next_backoff"]}
{"id": "C18", "title": "Backoff parameter validation", "statement": "ExponentialBackoffMaker::new accepts exactly min<=max, max>0, 0<=jitter<=100 finite; and rejects everything else.", "quantifier": "every min, max, jitter including NaN and infinities", "why_tests_cant": "Whole input domain including non-finite floats.", "anchors": ["tower/src/retry/backoff.rs:ExponentialBackoffMaker::new"]}
{"id": "C19", "title": "Buffer bound is respected", "statement": "The number of requests queued in a Buffer plus the slots reserved by handles never exceeds the bound, for any number of clones.", "quantifier": "every bound, clone count and interleaving of callers and worker", "why_tests_cant": "All interleavings of unboundedly many producers with the worker.", "anchors": ["tower/src/buffer/service.rs:Buffer", "tower/src/buffer/worker.rs:Worker"]}
{"id": "C20", "title": "Buffer delivers requests in order and at most once", "statement": "The sequence of requests the wrapped service receives is a subsequence of the sequence of accepted calls: in order, no duplication, no invention; a request is skipped only if its response future was dropped or the service had failed.", "quantifier": "every interleaving of callers, cancellations and worker steps", "why_tests_cant": "All interleavings.", "anchors": ["tower/src/buffer/worker.rs:Worker::poll_next_msg", "tower/src/buffer/worker.rs:Worker::poll"]}
{"id": "C21", "title": "Buffer responses are matched to their requests", "statement": "The response future of call number i resolves to the outcome of the inner future created for request i and never to that of another.", "quantifier": "every interleaving and number of in-flight requests", "why_tests_cant": "Cross-talk must be excluded for all histories.", "anchors": ["tower/src/buffer/future.rs:ResponseFuture", "tower/src/buffer/worker.rs", "tower/src/buffer/message.rs:Message"]}
{"id": "C22", "title": "Buffer broadcasts the service failure", "statement": "After the wrapped service fails in poll_ready with error e, no further request reaches it, every request already accepted and not yet dispatched resolves with that same error e, and every handle that has not reserved a slot before observes e from poll_ready. A handle whose poll_ready has returned an error stays failed: poll_ready keeps failing, call neither panics nor sends and returns a future that fails.", "quantifier": "every failure point", "why_tests_cant": "Failure can strike at any queue state.", "anchors": ["tower/src/buffer/worker.rs:Worker::failed", "tower/src/buffer/worker.rs:Handle::get_error_on_closed", "tower/src/buffer/error.rs:ServiceError"]}
{"id": "C23", "title": "Cancelled buffered requests are not executed", "statement": "If the response future of a buffered call is dropped before the worker takes it for dispatch (before the poll in which the worker finds it wanted and the service ready), the request never reaches the service and its queue slot is released.", "quantifier": "every cancellation point", "why_tests_cant": "All cancellation points in all queue states.", "anchors": ["tower/src/buffer/worker.rs:Worker::poll_next_msg"]}
{"id": "C24", "title": "Buffer drains gracefully", "statement": "When all handles are dropped the worker still processes all accepted non-cancelled requests before it terminates, and it terminates only then.", "quantifier": "every history", "why_tests_cant": "Shutdown at any queue state.", "anchors": ["tower/src/buffer/worker.rs:Worker::poll"]}
{"id": "C25", "title": "A dead buffer worker is reported as Closed", "statement": "If the worker task disappears (dropped or panicked), queued requests resolve with Closed and later poll_ready calls fail; a request sent through a slot reserved before the worker died violates this: its future never resolves.", "quantifier": "every crash point of the worker", "why_tests_cant": "Crash at any point.", "anchors": ["tower/src/buffer/service.rs:Buffer::call", "tower/src/buffer/future.rs:ResponseFuture::poll"]}
{"id": "C26", "title": "ReadyCache bookkeeping invariants", "statement": "In every history of push, evict, poll_pending, check_ready and call_ready: a key occurs at most once among ready and at most once among live pending services, each pending service has its cancellation handle, and none of the internal assertions/expects fails.", "quantifier": "every operation sequence, every number of keys, every readiness behaviour and wakeup order", "why_tests_cant": "Unbounded histories with interior indices changed by swap_remove.", "anchors": ["tower/src/ready_cache/cache.rs:ReadyCache"]}
{"id": "C27", "title": "ReadyCache evict", "statement": "After evict(k) returns, the key k is in neither set, no service pushed for k before is ever called or reported again, and evict returns whether k was present; other keys are unaffected.", "quantifier": "every state reachable", "why_tests_cant": "A cancelled pending future is removed lazily.", "anchors": ["tower/src/ready_cache/cache.rs:ReadyCache::evict"]}
{"id": "C28", "title": "ReadyCache push replaces", "statement": "After push(k, s) only s can be promoted for k from the pending set: an older pending service for k is cancelled and never becomes ready; until s becomes ready an older ready service for k stays usable, and s replaces it on promotion.", "quantifier": "every state and later history", "why_tests_cant": "Replacement races with readiness.", "anchors": ["tower/src/ready_cache/cache.rs:ReadyCache::push", "tower/src/ready_cache/cache.rs:ReadyCache::poll_pending"]}
{"id": "C29", "title": "ReadyCache dispatches to the addressed service after re-checking readiness", "statement": "call_ready_index(i, r)/call_ready(k, r) call exactly the service stored at that index/key, once, and move it back to pending (unless replaced); a service is promoted to ready only when its poll_ready returned Ready(Ok); a failing service is dropped and reported with its key.", "quantifier": "every state, index and key", "why_tests_cant": "Index/key mapping under swap_remove for all histories.", "anchors": ["tower/src/ready_cache/cache.rs:ReadyCache::call_ready_index", "tower/src/ready_cache/cache.rs:ReadyCache::check_ready_index"]}
{"id": "C30", "title": "Balance calls only an endpoint it just found ready", "statement": "After Balance's poll_ready returned Ready(Ok), call dispatches to an endpoint whose own poll_ready returned Ready(Ok) in that same poll_ready; call does not panic.", "quantifier": "every discovery stream, load function, random source, endpoint behaviour", "why_tests_cant": "All interleavings of discovery changes with readiness.", "anchors": ["tower/src/balance/p2c/service.rs:Balance::poll_ready", "tower/src/balance/p2c/service.rs:Balance::call"]}
{"id": "C31", "title": "Balance is Pending only if no endpoint is ready", "statement": "If poll_ready of Balance returns Pending then every discovered endpoint is not ready: its most recent poll_ready returned Pending (or it is waiting to be polled on wakeup).", "quantifier": "every state", "why_tests_cant": "Loop over p2c with endpoints changing state under it.", "anchors": ["tower/src/balance/p2c/service.rs:Balance::poll_ready"]}
{"id": "C32", "title": "Balance routes only to discovered endpoints", "statement": "Each request goes to an endpoint that was inserted by discovery and not removed or replaced-and-promoted since, as of the last poll_ready; len() is consistent with it.", "quantifier": "every discovery stream history", "why_tests_cant": "All histories of inserts/removes/re-inserts.", "anchors": ["tower/src/balance/p2c/service.rs:Balance::update_pending_from_discover"]}
{"id": "C33", "title": "Power of two choices picks the lesser loaded of two distinct endpoints", "statement": "With at least two ready endpoints, p2c compares two distinct endpoints chosen by the random source and picks one with the lesser load; the unique most loaded endpoint is never picked by that choice; with one endpoint it is picked. poll_ready settles on such a choice, unless the index chosen by an earlier poll_ready, not followed by a call, is kept. Successive choices use successive outputs of the balancer's random source: it advances by one draw for each choice among two or more, by nothing else, and no draw serves two choices.", "quantifier": "every load assignment, endpoint count and random source", "why_tests_cant": "All loads and random streams.", "anchors": ["tower/src/balance/p2c/service.rs:Balance::p2c_ready_index"]}
{"id": "C34", "title": "Endpoint failures do not fail the balancer", "statement": "An endpoint whose poll_ready fails is dropped from the balancer and the error is not surfaced; poll_ready of Balance fails only if discovery fails.", "quantifier": "every failure pattern", "why_tests_cant": "All failure patterns.", "anchors": ["tower/src/balance/p2c/service.rs:Balance::promote_pending_to_ready", "tower/src/balance/p2c/service.rs:Balance::poll_ready"]}
{"id": "C35", "title": "sample_floyd2 is a fair sample of two distinct indices", "statement": "For length>=2 sample_floyd2 returns two distinct indices below length, and uniform inputs give each ordered pair exactly once (a bijection from the two range choices to ordered distinct pairs).", "quantifier": "every length and pair of random draws", "why_tests_cant": "All lengths.", "anchors": ["tower/src/util/rng.rs:sample_floyd2"]}
{"id": "C36", "title": "Rng ranges", "statement": "next_range(a..b) returns a number in [a,b) and next_f64 lies in [0,1) exactly representable, for every 64 bit output of the generator; next_range is biased by at most one part and next_f64 is uniform on its 2^53 values; HasherRng's counter wraps without repeating before 2^64.", "quantifier": "every u64 output and range", "why_tests_cant": "All 2^64 outputs.", "anchors": ["tower/src/util/rng.rs:Rng::next_range", "tower/src/util/rng.rs:Rng::next_f64"]}
{"id": "C37", "title": "PendingRequests load equals outstanding requests", "statement": "The load reported by PendingRequests equals the number of calls made whose tracking handle has not yet been dropped: incremented at call, decremented exactly once per call at completion, error-drop or cancellation.", "quantifier": "every interleaving of calls, completions, drops and response-body drops", "why_tests_cant": "All interleavings.", "anchors": ["tower/src/load/pending_requests.rs:PendingRequests", "tower/src/load/completion.rs:TrackCompletionFuture"]}
{"id": "C38", "title": "PeakEwma estimate bounds", "statement": "PeakEwma's estimate always lies between 0 and the maximum of the default rtt and the observed rtts; it jumps to a new peak at once, decays monotonically with time towards newer lower rtts, and the load is estimate*(pending+1).", "quantifier": "every sequence of timed updates, decay constants", "why_tests_cant": "Real analysis over all sequences.", "anchors": ["tower/src/load/peak_ewma.rs:RttEstimate::update", "tower/src/load/peak_ewma.rs:PeakEwma::load"]}
{"id": "C39", "title": "Hedge sends at most two attempts", "statement": "For each request Hedge issues one primary attempt, and at most one hedge attempt, and the latter only if the policy cloned the request, enough data points were recorded, the delay elapsed, the primary had not finished, and the policy's can_retry agreed.", "quantifier": "every policy, latency history and schedule", "why_tests_cant": "All schedules.", "anchors": ["tower/src/hedge/mod.rs:Hedge", "tower/src/hedge/select.rs", "tower/src/hedge/delay.rs", "tower/src/hedge/latency.rs"]}
{"id": "C40", "title": "Hedge outcome law", "statement": "The outcome is that of the first attempt seen to finish, the primary winning ties. A hedge suppressed by policy never completes the request with a response: the outcome is the primary's, unless the second instance failed to become ready, which is reported although the primary is still running.", "quantifier": "every schedule", "why_tests_cant": "Races over all schedules.", "anchors": ["tower/src/hedge/select.rs:ResponseFuture::poll", "tower/src/hedge/delay.rs:ResponseFuture::poll"]}
{"id": "C41", "title": "Rotating histogram window", "statement": "Reads see exactly the samples recorded in the previous rotation period (none older than two periods), provided the clock gap counts fewer than 2^32 periods; a wider gap breaks this through truncation to u32.", "quantifier": "every timed sequence of records and reads, every period", "why_tests_cant": "All timed histories including huge gaps.", "anchors": ["tower/src/hedge/rotating_histogram.rs:RotatingHistogram"]}
{"id": "C42", "title": "Reconnect lifecycle", "statement": "Reconnect holds at most one connection at a time, dispatches calls only to the connection whose poll_ready last succeeded, starts a new connection attempt only after the previous attempt or connection failed and the maker was ready.", "quantifier": "every maker and connection behaviour", "why_tests_cant": "All failure sequences; a livelock exists.", "anchors": ["tower/src/reconnect/mod.rs:Reconnect"]}
{"id": "C43", "title": "Reconnect surfaces a connect error exactly once", "statement": "A failed connection attempt does not fail poll_ready; it is reported by a later call's future. No error is ever reported twice, invented or reordered. If the caller always calls after being told Ready, every failed attempt is reported exactly once, by the next call. (If the caller polls again instead of calling, an error can be lost, or reported for a request although a connection is up by then; two executions show this.)", "quantifier": "every history", "why_tests_cant": "All histories.", "anchors": ["tower/src/reconnect/mod.rs:Reconnect::poll_ready", "tower/src/reconnect/mod.rs:Reconnect::call", "tower/src/reconnect/future.rs"]}
{"id": "C44", "title": "SpawnReady drives readiness in the background and is transparent", "statement": "SpawnReady reports Ready only when the inner service is ready in its hands (polled ready after getting it back from the task), owns the inner service exclusively (never both in task and local), and surfaces its readiness error. While the service is in the task it makes progress without the caller, and poll_ready then shows what the task has come to. A failure of the task is final: the service is lost, and polling or calling again panics.", "quantifier": "every interleaving of caller and background task", "why_tests_cant": "All interleavings.", "anchors": ["tower/src/spawn_ready/service.rs:SpawnReady"]}
{"id": "C45", "title": "Steer waits for all services and routes by picker", "statement": "Steer is ready only when every inner service has reported ready since its own last call; call goes exactly to the picked service.", "quantifier": "every number of services, picker and readiness pattern", "why_tests_cant": "All patterns.", "anchors": ["tower/src/steer/mod.rs:Steer"]}
{"id": "C46", "title": "Filter forwards exactly the accepted requests", "statement": "Filter calls the inner service exactly with the predicate's output when it accepts, and otherwise yields the predicate's error with the inner service untouched.", "quantifier": "every predicate, request, service", "why_tests_cant": "All predicates.", "anchors": ["tower/src/filter/mod.rs:Filter::call", "tower/src/filter/predicate.rs"]}
{"id": "C47", "title": "AsyncFilter consumes readiness safely", "statement": "AsyncFilter calls the very inner instance that was polled ready (keeping a fresh clone for itself), at most once per request, only after the async predicate accepted, with its output.", "quantifier": "every predicate future and schedule; clones", "why_tests_cant": "All schedules.", "anchors": ["tower/src/filter/mod.rs:AsyncFilter::call", "tower/src/filter/future.rs:AsyncResponseFuture"]}
{"id": "C48", "title": "CallAll ordered yields responses in request order", "statement": "CallAll yields, for a stream of requests and a service whose readiness does not fail, exactly one item per request, in request order; each request is issued once, in order, only when the service is ready. The service can be taken out once, at any moment and in the state its use left it in; nothing is asked of it afterwards.", "quantifier": "every stream, completion order, schedule", "why_tests_cant": "All completion orders.", "anchors": ["tower/src/util/call_all/common.rs:CallAll::poll_next", "tower/src/util/call_all/ordered.rs"]}
{"id": "C49", "title": "CallAllUnordered yields each response exactly once", "statement": "CallAllUnordered yields a permutation of the responses of the issued requests, and ends only after the stream ended and all were yielded.", "quantifier": "every stream, completion order, schedule", "why_tests_cant": "All completion orders.", "anchors": ["tower/src/util/call_all/common.rs", "tower/src/util/call_all/unordered.rs"]}
{"id": "C50", "title": "Oneshot and ReadyOneshot", "statement": "Oneshot polls readiness until ready, then calls exactly once with the given request and returns that outcome; a readiness error ends it without a call. However often it is polled, also after it has finished, it calls at most once; ReadyOneshot keeps its service after an error and panics when polled after giving it back.", "quantifier": "every service and schedule", "why_tests_cant": "All schedules.", "anchors": ["tower/src/util/oneshot.rs:Oneshot", "tower/src/util/ready.rs:ReadyOneshot"]}
{"id": "C51", "title": "Layer composition order", "statement": "Layers added to ServiceBuilder wrap so that the first added sees requests first: build(l1..ln)(s) = l1(l2(...ln(s))), Stack and tuples agree with it, Identity is neutral, composition is associative.", "quantifier": "every list of layers and service", "why_tests_cant": "All lists.", "anchors": ["tower-layer/src/stack.rs:Stack", "tower-layer/src/tuple.rs", "tower-layer/src/identity.rs", "tower/src/builder/mod.rs:ServiceBuilder"]}
{"id": "C52", "title": "Combinator laws", "statement": "map_request, map_response, map_err, map_result, map_future, then and and_then satisfy their functional specification on the request/outcome function and never change when the inner service is called.", "quantifier": "every function and service", "why_tests_cant": "All functions.", "anchors": ["tower/src/util/map_request.rs", "tower/src/util/map_response.rs", "tower/src/util/map_err.rs", "tower/src/util/map_result.rs", "tower/src/util/then.rs", "tower/src/util/and_then.rs", "tower/src/util/map_future.rs"]}
{"id": "C53", "title": "FutureService becomes the service its future yields", "statement": "FutureService is Pending until its future resolves, surfaces its error (and then still holds that future, as it was left), and from success on behaves exactly as the produced service; the future is not polled after success. A call before the future has resolved panics.", "quantifier": "every future and service", "why_tests_cant": "All schedules.", "anchors": ["tower/src/util/future_service.rs:FutureService"]}
{"id": "C54", "title": "ServiceList discovery", "statement": "ServiceList yields an Insert for each service once, in order, with keys 0..n-1, and then ends; it never removes.", "quantifier": "every list", "why_tests_cant": "All lengths.", "anchors": ["tower/src/discover/list.rs:ServiceList"]}
{"id": "C55", "title": "tower-test Mock", "statement": "Mock sends each request accepted to its Handle in call order, responses go to their own requests, allow(n) admits at least and (with a single clone) at most n further calls; send_error fails one poll_ready; dropping the handle closes it. With several clones allow(n) can be exceeded.", "quantifier": "every history of mock and handle operations, any number of clones", "why_tests_cant": "All interleavings.", "anchors": ["tower-test/src/mock/mod.rs:Mock", "tower-test/src/mock/mod.rs:Handle"]}
{"id": "C56", "title": "Either, Optional and boxed services are transparent", "statement": "Either behaves exactly as the variant it holds, Optional(Some s) as s and Optional(None) is ready and answers with the None error, boxing does not change behaviour (trace equivalence).", "quantifier": "every history of operations", "why_tests_cant": "All histories.", "anchors": ["tower/src/util/either.rs", "tower/src/util/optional/mod.rs", "tower/src/util/boxed/sync.rs", "tower/src/util/boxed_clone.rs"]}
{"id": "C57", "title": "MakeService adapters", "statement": "Shared is always ready and yields clones of the service; MakeBalance yields a balancer over the discovery produced by its maker; IntoService/AsService forward.", "quantifier": "every maker and service", "why_tests_cant": "All makers.", "anchors": ["tower/src/make/make_service/shared.rs:Shared", "tower/src/make/make_service.rs", "tower/src/balance/p2c/make.rs:MakeBalance"]}
{"id": "C58", "title": "Load wrappers of discovery, Constant", "statement": "PendingRequestsDiscover, PeakEwmaDiscover and Constant over a discovery pass on every change, error, end and Pending of the inner discovery unchanged and in order, except that each inserted service is wrapped once; Constant is transparent and its load never changes.", "quantifier": "every discovery, service and sequence of polls and calls", "why_tests_cant": "All discoveries and histories.", "anchors": ["tower/src/load/constant.rs:Constant", "tower/src/load/pending_requests.rs:PendingRequestsDiscover", "tower/src/load/peak_ewma.rs:PeakEwmaDiscover"]}
{"id": "C59", "title": "No lost wake-ups", "statement": "Whenever poll_ready, a response future, oneshot/ready_oneshot, or a call_all stream of a stack of tower middleware returns Pending, the task's waker was registered with something (an inner service or future, a timer, a semaphore, a task handle, the discovery) during that very call, provided the user's services, futures, policies and discovery do so too. Exception: a Balance whose discovery has ended and which has no endpoint returns Pending without any registration.", "quantifier": "every stack of middleware, every state, every input and every world", "why_tests_cant": "A missed registration shows only as a hang under one particular schedule; the claim is over all states and stacks.", "anchors": ["tower/src/timeout/future.rs", "tower/src/limit/rate/service.rs", "tower/src/limit/concurrency/service.rs", "tower/src/balance/p2c/service.rs:Balance", "tower/src/util/call_all/common.rs", "tower/src/retry/future.rs", "tower/src/hedge/mod.rs", "tower/src/reconnect/mod.rs", "tower/src/spawn_ready/service.rs"]}
{"id": "C60", "title": "Retries under the documented budget policy", "statement": "With the documented policy (deposit on success, withdraw on failure, one TpsBudget shared by all clones): over all clones and requests the inner service is called at most once per request plus once per retry granted; successes and failures of the inner service, and nothing else, drive the budget, at the time they occur; and whenever a retry is granted, the retries granted in the last half ttl cost no more than the reserve plus the deposits of the successes in the last 1.1 ttl, however the service fails.", "quantifier": "every inner service, every number of clones and concurrent requests, every interleaving of polls, drops and clock changes", "why_tests_cant": "A retry storm needs a particular population of failing clients and a particular schedule; the bound is over all of them.", "anchors": ["tower/src/retry/budget/mod.rs:Budget", "tower/src/retry/mod.rs:Retry", "tower/src/retry/future.rs:ResponseFuture", "tower/src/retry/budget/tps_budget.rs:TpsBudget"]}
{"id": "C61", "title": "Hedge with its latency histogram", "statement": "With the rotating histogram shared by all clones and requests of a hedge: exactly the successes of the hedged service are recorded, first and second attempts alike, each once, with the time since its call in milliseconds rounded up; a second attempt is prepared exactly if the policy clones the request and at least min_data_points latencies were observed in the last full period, due after the configured quantile of those latencies; and n requests, m of which were prepared for hedging, never cause more than n + m calls of the service. The recording itself changes nothing of what the service does.", "quantifier": "every inner service, any number of concurrent requests, every interleaving of polls, drops and clock changes (forward only, within the 64-bit range)", "why_tests_cant": "Which latencies count and when depends on the whole history of all requests and on the clock.", "anchors": ["tower/src/hedge/mod.rs:Hedge", "tower/src/hedge/latency.rs:Latency", "tower/src/hedge/rotating_histogram.rs:RotatingHistogram", "tower/src/hedge/select.rs:Select", "tower/src/hedge/delay.rs:Delay"]}
{"id": "C62", "title": "No deadlock in a buffer", "statement": "Consider a buffer whose tasks run only when woken. From every moment on, the woken tasks come to rest after boundedly many steps, whatever the inner service answers, if nobody calls, clones or drops anything and no waker is used from outside. At rest, a handle's poll_ready is Pending only if the inner service returned Pending to the worker or every slot is reserved by a handle that saw Ready and was not called; a response future is Pending only if the inner service, or the inner future of that call, returned Pending (or the request was sent after the worker had died, C25); and if all handles are gone the worker has ended or waits for the inner service.", "quantifier": "every inner service, any number of handles and requests, every interleaving, every bound", "why_tests_cant": "A lost wake-up hangs under one schedule only; the claim is over all reachable states.", "anchors": ["tower/src/buffer/worker.rs:Worker", "tower/src/buffer/service.rs:Buffer", "tower/src/buffer/future.rs:ResponseFuture"]}
{"id": "C63", "title": "Load shedding over a concurrency limit", "statement": "With ServiceBuilder::new().load_shed().concurrency_limit(max), in every history of all clones: accepted calls whose response futures exist, plus capacity reserved by handles, never exceed max. poll_ready of a handle is Ready(Ok) whenever the inner service is ready; the request that follows reaches the inner service exactly if calls in flight plus capacity reserved by other handles were below max, and is otherwise answered Overloaded without touching anything. With one handle this means: shed exactly if max calls are in flight. A reservation (also of a clone that was shed once and then left idle) stays until its handle is used or dropped. call never panics of its own, even without poll_ready.", "quantifier": "every inner service, limit, number of clones, interleaving, dropping and panicking of handles and futures", "why_tests_cant": "Which clone holds which permit depends on the whole history of polls and drops.", "anchors": ["tower/src/load_shed/mod.rs:LoadShed", "tower/src/limit/concurrency/service.rs:ConcurrencyLimit", "tower/src/limit/concurrency/layer.rs:GlobalConcurrencyLimitLayer", "tower/src/builder/mod.rs:ServiceBuilder::load_shed"]}
{"id": "C64", "title": "A buffer is one lawful user of the service it wraps", "statement": "However many clones of a Buffer there are and however their calls, response futures, drops and the worker interleave, the wrapped service is used as if by a single caller that obeys the Service contract: polled ready before each call, never used again after its poll_ready failed, and passed exactly the dispatched requests in order. Hence if the wrapped service keeps its contract, neither it nor any of its futures panics under the buffer; and with a RateLimit of num per `per` under the buffer, all clones together get at most (k+1)*num requests through to the service in any window of length k*per.", "quantifier": "every wrapped service, bound, number of clones, interleaving of handles, response futures, worker and drops; for the rate limit every clock that does not run backwards and every window", "why_tests_cant": "Any interleaving of clones, cancellations and worker polls could let two calls share one readiness or pass the limiter out of turn.", "anchors": ["tower/src/buffer/worker.rs:Worker", "tower/src/buffer/service.rs:Buffer", "tower/src/limit/rate/service.rs:RateLimit"]}
{"id": "C65", "title": "What the services made by a concurrency limit layer share", "statement": "Each service to which ConcurrencyLimitLayer::new(max) is applied gets, together with its own clones, a limit of max of its own: at most max of its calls are in flight or have a permit reserved, and it is made to wait only on account of its own calls and handles, whatever other services made by the same layer do. All services to which GlobalConcurrencyLimitLayer::new(max), or clones of it, are applied share the one limit max among all of them and their clones, and are made to wait only on account of that layer's own calls and handles.", "quantifier": "every number of layers, services, clones and calls; every interleaving of making layers, applying them, polling, calling, cloning, dropping and panics of the wrapped services", "why_tests_cant": "Which services share a limit shows only in histories with several applications of a layer and any interleaving of their users.", "anchors": ["tower/src/limit/concurrency/layer.rs:ConcurrencyLimitLayer", "tower/src/limit/concurrency/layer.rs:GlobalConcurrencyLimitLayer", "tower/src/limit/concurrency/service.rs:ConcurrencyLimit"]}
{"id": "C66", "title": "Chains of ServiceBuilder methods", "statement": "ServiceBuilder::new().m1(..).m2(..)...mn(..).service(s) is the service one gets by passing s to the constructor of mn's middleware, the result to that of m(n-1), and so on, m1 outermost, with the same arguments: for all of timeout, load_shed, rate_limit, concurrency_limit, buffer, retry, filter, filter_async, map_request, map_response, map_err, map_result, map_future, then, and_then, boxed, boxed_clone, layer, layer_fn, option_layer. service_fn(f) ends a chain as service(service_fn(f)); boxed_clone_sync boxes everything built so far and what comes after it goes inside that box. If s keeps the Service contract and the demands of each method are met (e.g. a Clone service under retry), the service built keeps the contract. A closure used as a predicate that rejects a request keeps it from the service and its error, converted, is the response.", "quantifier": "every chain of any length, all arguments and closures, every service, every later use", "why_tests_cant": "Chains are unbounded and heterogeneous; a test builds a few of them.", "anchors": ["tower/src/builder/mod.rs:ServiceBuilder", "tower/src/util/mod.rs:ServiceExt", "tower/src/timeout/layer.rs:TimeoutLayer", "tower/src/load_shed/layer.rs:LoadShedLayer", "tower/src/limit/rate/layer.rs:RateLimitLayer", "tower/src/limit/concurrency/layer.rs:ConcurrencyLimitLayer", "tower/src/retry/layer.rs:RetryLayer", "tower/src/buffer/layer.rs:BufferLayer", "tower/src/filter/layer.rs:FilterLayer", "tower/src/filter/predicate.rs:Predicate", "tower/src/util/boxed/layer_clone_sync.rs:BoxCloneSyncServiceLayer"]}
{"id": "C67", "title": "A balancer over PendingRequests or PeakEwma sends requests where fewer are in flight", "statement": "In a p2c balancer whose discovery is wrapped in PendingRequestsDiscover, each endpoint inserted gets a counter of its own; the load the balancer reads for an endpoint it holds is exactly the number of requests that were dispatched to that endpoint and are not finished (a request finishes when its future returns a response that does not keep the handle, when such a response is dropped, or when the future is dropped before), and reading never panics. A call of the balancer is counted at the endpoint it goes to. When poll_ready returns Ready(Ok), the endpoint that the next call goes to was chosen by an earlier poll_ready, or is the only one ready, or two of the ready ones were drawn at random and it is the one with fewer requests in flight: so with two or more ready endpoints and no choice pending, the request never goes to an endpoint with strictly more requests in flight than all other ready ones. With PeakEwmaDiscover the same holds of estimate x (requests in flight + 1), where the estimate of an endpoint is between 0 and the largest of the default and the round trip times observed at that endpoint.", "quantifier": "every endpoint service, discovery sequence, random generator, completion policy, and every interleaving of poll_ready, call, polls and drops of response futures and responses, and passing time", "why_tests_cant": "The load an endpoint shows depends on the whole history of dispatches, completions and cancellations across all endpoints, interleaved with insertion and removal of endpoints.", "anchors": ["tower/src/balance/p2c/service.rs:p2c_ready_index", "tower/src/balance/p2c/service.rs:Balance", "tower/src/load/pending_requests.rs:PendingRequestsDiscover", "tower/src/load/pending_requests.rs:PendingRequests", "tower/src/load/peak_ewma.rs:PeakEwmaDiscover", "tower/src/load/completion.rs:TrackCompletionFuture"]}
{"id": "C68", "title": "Sessions of ExponentialBackoff", "statement": "For every ExponentialBackoffMaker accepted by new (and for default(), which never panics): in every session started with make_backoff, whatever sessions were started before, every delay is between min and max, the k-th delay is at least min*2^k (capped at max, the factor at 2^32-1), equal to it when jitter is 0, and at most base + base*jitter in exact arithmetic. next_backoff panics only if there is jitter and the random number is exactly 0.0 (for max below 2^57 s). All sessions of one maker give the same delays, jitter included, because make_backoff clones the generator without advancing the maker's. A clone of a session in progress goes on where the session is (against the documentation of Backoff, which says Clone resets).", "quantifier": "every min, max, jitter, random generator and its state, number of sessions, number of delays, and any rounding of the floating point products", "why_tests_cant": "Unbounded sequences of delays for all parameters, generators and session counts.", "anchors": ["tower/src/retry/backoff.rs:ExponentialBackoffMaker", "tower/src/retry/backoff.rs:ExponentialBackoff", "tower/src/retry/backoff.rs:MakeBackoff", "tower/src/util/rng.rs:Rng"]}
{"id": "C69", "title": "Retries over a concurrency limit stay inside the limit and do not hold capacity while they wait", "statement": "For a service built as retry over a concurrency limit of max, whatever the policy and the inner service do and in whatever order handles are polled, called, cloned and dropped and response futures are polled and dropped: the attempts in flight (first attempts and retries of all clones together) plus the handles and futures that have reserved capacity never exceed max; a failed attempt gives its capacity back as soon as the policy decides to wait, before the wait begins, and a response future that waits between two attempts (or has an attempt in flight) holds no further permit and no place in the queue; a retry that cannot get capacity is blocked only when all of max is in use; if less than max is in use and somebody waits, the one who waits longest would get capacity if polled now (retries cannot deadlock each other); when everything is dropped all capacity is back. A handle that was found ready and is left alone does block retries.", "quantifier": "every max, policy, inner service, world, and every history of poll_ready, call, clone, drop and future polls on any number of handles and futures, interleaved at each iteration of the retry loop", "why_tests_cant": "the permit travels between handle, attempt future, policy wait and the clone inside the retry future; leaks or double holding show only in particular interleavings of retries with other clones and cancellations", "anchors": ["tower/src/retry/future.rs:ResponseFuture::poll", "tower/src/retry/mod.rs:Retry", "tower/src/limit/concurrency/service.rs:ConcurrencyLimit", "tower/src/limit/concurrency/future.rs:ResponseFuture"]}
{"id": "C70", "title": "SpawnReady over a concurrency limit: background tasks neither lose nor duplicate services or capacity", "statement": "For any number of SpawnReady handles over services that share a concurrency limit of max, with their background tasks scheduled, finishing, failing, panicking, aborted or cancelled by the runtime at any time: calls in flight plus capacity reserved by handles and tasks never exceed max and no permit is lost; a service is in exactly one place (a handle or one task), handles never find themselves without both; Ready(Ok) means the service is back in the handle with capacity reserved, so the call succeeds; a task gets readiness with no handle being polled, and the next poll_ready of its handle takes the service back and reports ready however busy the limit is; if someone waits while less than max is used, the longest waiter would get capacity now; dropping a handle aborts its task, which is not polled again, and once the runtime dropped it neither permit nor place in the queue remains; when all handles and response futures are dropped only aborted tasks remain, and after these all capacity is back. A handle that is no longer polled can nevertheless hold capacity, through its task.", "quantifier": "every max, inner service, world, and every interleaving of poll_ready (iteration by iteration), calls, future polls, drops of handles and futures, task polls, task panics, aborts and runtime shutdown", "why_tests_cant": "the service moves between handle and task, and the abort on drop races with the task finishing; leaks show only for particular interleavings of drops with task progress", "anchors": ["tower/src/spawn_ready/service.rs:SpawnReady", "tower/src/spawn_ready/service.rs:Drop", "tower/src/limit/concurrency/service.rs:ConcurrencyLimit", "tower/src/util/ready.rs:ReadyOneshot"]}
{"id": "C71", "title": "PeakEwma in floating point: estimates stay in line with the round trip times observed, in spite of rounding", "statement": "With IEEE 754 arithmetic (every operation rounded to the nearest, any rule for ties): durations up to 2^53 ns are converted exactly; the estimate is never negative, never NaN, and never above both the default and every round trip time observed, but for a factor (1+2^-53)^4 for each call that ended; a round trip time above the estimate becomes the estimate exactly, a lower one gives an estimate between the two, but for the error of four roundings; between ends of calls the estimate never rises, however often the load is read; the load read is that estimate times one more than the calls in flight, rounded, hence not below the estimate; no reading and no end of a call panics. A balancer over PeakEwma compares exactly these rounded products. With exact arithmetic the code is the model of C38.", "quantifier": "every decay > 0, default of at least 1 ns, every rounding to nearest, every implementation of exp that maps numbers not above 0 to f64s from 0 to 1, and every history of calls, polls, drops, readings and clock readings", "why_tests_cant": "rounding errors accumulate over arbitrarily long histories; tests compare a few values with a tolerance", "anchors": ["tower/src/load/peak_ewma.rs:RttEstimate", "tower/src/load/peak_ewma.rs:nanos", "tower/src/load/peak_ewma.rs:PeakEwma", "tower/src/balance/p2c/service.rs:Balance"]}
{"id": "C72", "title": "Retry budgets and backoff in floating point: rounding does not break their limits", "statement": "With f32 arithmetic for retry_percent = r and f64 arithmetic for the jitter (any rounding to nearest): TpsBudget::new accepts exactly r from 0 to 1000 (with ttl of 1 to 60 s and min_per_sec below i32::MAX); whenever a retry is granted, it and those of the last half ttl are at most min_per_sec per second of ttl plus 2r times the requests of the last 1.1 ttl; a retry is granted whenever it and those of the last 1.1 ttl are at most min_per_sec per second of ttl plus r(1-2^-23) times the requests of the last half ttl; for r from 2^-24 to 1 a retry costs 1/r deposits rounded down or up. TpsBudget::default() lets a retry cost exactly 5 deposits and keeps 100 retries in reserve per 10 s. The k-th delay of a backoff session exceeds min*2^k (capped) by at most jitter*(1+2^-50) times that, the casts of the jitter truncate what fits and saturate what does not; and with max below 2^57 s next_backoff panics only if the random number is exactly 0.0 and there is jitter.", "quantifier": "every percentage, ttl, min_per_sec, jitter, min, max, generator, every rounding to the nearest, and every history of deposits, withdrawals and delays without overflow of isize", "why_tests_cant": "the cost of a retry is a truncated rounded quotient, so its error depends on the percentage; tests use 0.1, 0.5 or 2.0", "anchors": ["tower/src/retry/budget/tps_budget.rs:TpsBudget", "tower/src/retry/backoff.rs:ExponentialBackoff", "tower/src/util/rng.rs:Rng"]}
{"id": "C73", "title": "Waiting for a concurrency limit: whoever can go on is woken, nobody is woken in vain, nobody starves", "statement": "For all clones of a ConcurrencyLimit (and all services that share its semaphore), used, dropped and cancelled in any interleaving: a handle whose poll_ready returned Pending because of the limit and that would get a permit now has been woken since that poll; a waiting handle that was woken gets a permit when it polls; when every wake-up was followed by a poll and a handle still waits, all max permits are in use by response futures or by handles that were told Ready; and while a handle waits with i handles before it, after i+1 permits were given up it would get one, whatever the others do.", "quantifier": "every max, number of handles and futures, and interleaving of poll_ready, call, poll, clone, drop and panics of the inner service", "why_tests_cant": "A lost wake-up or a starved waiter shows only in particular interleavings of releases, cancellations and polls.", "anchors": ["tower/src/limit/concurrency/service.rs:ConcurrencyLimit", "tower/src/limit/concurrency/future.rs:ResponseFuture", "tower/src/limit/concurrency/layer.rs:GlobalConcurrencyLimitLayer"]}
{"id": "C74", "title": "A buffer around a concurrency limit bounds what is outstanding and never stalls with capacity left", "statement": "For ServiceBuilder::new().buffer(bound).concurrency_limit(max) around any service, under any interleaving of handles, worker, response futures, cancellations and panics of the service: at most max requests are in flight (dispatched, with a response future the caller has not dropped), and at most bound + 1 + max accepted requests are outstanding. The worker waits for a permit only while exactly max requests are in flight, or it has been woken since it last asked and will get a permit. Free, assigned and held permits and requests in flight always add up to max; when the worker is gone and the response futures were dropped, every permit is back, whatever failed or panicked.", "quantifier": "every inner service, bound, max, number of handles and calls, and interleaving of all steps of users, worker and executor", "why_tests_cant": "The permit of a request travels from the worker through a channel to a response future in another task; it can leak or be released early only under particular interleavings of cancellation, failure and death of the worker.", "anchors": ["tower/src/buffer/worker.rs:Worker", "tower/src/buffer/future.rs:ResponseFuture", "tower/src/limit/concurrency/service.rs:ConcurrencyLimit", "tower/src/limit/concurrency/future.rs:ResponseFuture", "tower/src/builder/mod.rs:ServiceBuilder"]}
{"id": "C75", "title": "call_all over a concurrency limit keeps the limit, uses it in full and never waits for itself", "statement": "Any number of CallAll and CallAllUnordered streams and other users may share one ConcurrencyLimit: at most max requests are in flight at any moment, every permit is free, kept by a ready handle or with a request in flight, and a response that is kept back until its turn keeps no permit. A stream that is Pending waits for its request stream, for the inner service, for a response, or for a permit with a request in hand; alone on its limit it waits for a permit only while exactly max of its calls are outstanding, so it never deadlocks on itself. When everything was dropped, at whatever moment, all permits are back.", "quantifier": "every max > 0, request stream, inner service, completion order and poll order, number of streams and other users, and interleaving with drops and take_service", "why_tests_cant": "which permits are held depends on the whole interleaving of requests, completions out of order, polls and drops", "anchors": ["tower/src/util/call_all/common.rs:CallAll", "tower/src/util/call_all/ordered.rs:CallAll", "tower/src/util/call_all/unordered.rs:CallAllUnordered", "tower/src/limit/concurrency/service.rs:ConcurrencyLimit", "tower/src/limit/concurrency/future.rs:ResponseFuture"]}
{"id": "C76", "title": "Hedge over a concurrency limit counts hedges, never blocks on them, and returns every permit", "statement": "Any number of Hedges and other users may share one ConcurrencyLimit: original requests and hedges in flight are together at most max, and every permit is free, kept by a ready handle, or with one request in flight. A Hedge is ready as soon as it has one permit; it asks for a second one only when the hedge is due, and a request is Pending only while its original is, so a hedge that gets no permit delays nothing. A hedge takes its permit before the policy is asked, and one that the policy rejects keeps it until the response future is dropped. When everything was dropped, at whatever moment, all permits are back.", "quantifier": "every max, inner service, hedge policy, histogram, clock and delay, number of Hedges and other users, and interleaving of polls, calls and drops", "why_tests_cant": "permits are held in four places by futures at different stages, and the claim is about every interleaving of time, completions, polls and drops", "anchors": ["tower/src/hedge/mod.rs:Hedge", "tower/src/hedge/select.rs:ResponseFuture", "tower/src/hedge/delay.rs:ResponseFuture", "tower/src/filter/future.rs:AsyncResponseFuture", "tower/src/util/oneshot.rs:Oneshot", "tower/src/limit/concurrency/service.rs:ConcurrencyLimit", "tower/src/limit/concurrency/future.rs:ResponseFuture"]}
{"id": "C77", "title": "ReadyCache and Balance never lose, duplicate or leak an endpoint", "statement": "In every history of a ReadyCache (push, evict, poll_pending, check_ready[_index], call_ready[_index], in-place changes of ready services, in any order) and of a Balance (poll_ready and call, with any discovery), every service that was pushed, or that discovery has handed out, is either in the cache, pending or ready, exactly once, or its destructor has run, exactly once; when the cache is dropped, every service ever pushed has been dropped exactly once. evict drops the ready service of the key at once and only that one; a pending one stays in the cache until it is polled, and when poll_pending says that none is pending none is kept.", "quantifier": "all services (any readiness behaviour, failures, any destructor with any effect on the world), keys, discoveries, load metrics, random numbers, orders in which pending services are polled, interleavings of operations and changes of the rest of the world", "why_tests_cant": "Ownership is spread over a FuturesUnordered, an IndexMap, values in flight between them and replaced or cancelled entries; a leak or double ownership shows up only for particular orders of push, evict, readiness and calls.", "anchors": ["tower/src/ready_cache/cache.rs:evict", "tower/src/ready_cache/cache.rs:push_pending", "tower/src/ready_cache/cache.rs:poll_pending", "tower/src/ready_cache/cache.rs:check_ready_index", "tower/src/ready_cache/cache.rs:call_ready_index", "tower/src/ready_cache/cache.rs:Pending", "tower/src/balance/p2c/service.rs:update_pending_from_discover"]}
{"id": "C78", "title": "Balance with endpoints under a concurrency limit", "statement": "In every history of balancers whose endpoints (all or some) are wrapped in ConcurrencyLimits with one semaphore of max permits (a GlobalConcurrencyLimitLayer, or one endpoint's own limit), and of any other users of that limit: free permits, permits kept by endpoints and handles, and requests in flight add up to max; so at most max requests are in flight. Every ready endpoint under the limit keeps a permit (even if the balancer is idle), one that discovery removes while it is ready gives it back at once, and when balancers, futures and other handles are gone all permits are back and nobody waits: removed, replaced, failed or dropped endpoints keep nothing. Finding: an idle balancer reserves a permit for every ready endpoint, so other users of the limit can wait although no request is in flight.", "quantifier": "all inner services, discoveries, choices of limited endpoints, max, loads, random numbers, polling orders (which may depend on the semaphore), numbers of balancers, interleavings with other users of the limit and changes of the rest of the world", "why_tests_cant": "Permits travel between the semaphore, handles inside the pending set, the ready map, and response futures, and are given back by destructors at places that depend on discovery and readiness; no finite set of schedules covers it.", "anchors": ["tower/src/balance/p2c/service.rs:poll_ready", "tower/src/balance/p2c/service.rs:call", "tower/src/balance/p2c/service.rs:update_pending_from_discover", "tower/src/ready_cache/cache.rs:evict", "tower/src/ready_cache/cache.rs:poll_pending", "tower/src/limit/concurrency/service.rs:poll_ready", "tower/src/limit/concurrency/service.rs:call", "tower/src/limit/concurrency/service.rs:load"]}
{"id": "C79", "title": "PeakEwma with handles dropped on any threads", "statement": "Response futures (and with them the handles) of a PeakEwma service are dropped on any threads while others are dropped and the load is read. Whatever overlaps: no update is lost (the estimate is what the ends of calls and readings give one after the other in the order they got the lock); no assertion about times can fail and nothing panics; the end of a call is observed at most once, with a round trip time no longer than the time since the call; the estimate is never negative, never above both the default and every observed round trip time, and at least every observed one decayed since it was observed; a reading returns (calls whose handles were not gone at one moment, plus one) times the estimate decayed to a later moment; when all handles are gone it counts none in flight.", "quantifier": "all interleavings of any number of calls, drops and readings, at the granularity of clock readings, the mutex and the atomic count; all times, defaults and decay constants > 0", "why_tests_cant": "Needs all interleavings of drops with clock readings outside the lock; a unit test sees one.", "anchors": ["tower/src/load/peak_ewma.rs:handle", "tower/src/load/peak_ewma.rs:load", "tower/src/load/peak_ewma.rs:update", "tower/src/load/peak_ewma.rs:decay", "tower/src/load/peak_ewma.rs:drop"]}
{"id": "C80", "title": "A concurrency limit under any stack of per-request middleware", "statement": "Put any stack of map_request, map_response, map_err, map_result, then, and_then, filter, timeout, load_shed, rate_limit, further concurrency limits, Either, Optional and boxed services on top of a concurrency limit of max (branches of Either may bypass it). Whatever users of all handles, clones and response futures of the stack do, and whatever panics: at most max calls of the innermost service are in flight (their response futures exist); free permits, permits assigned to a waiting handle, permits of ready handles and calls in flight add up to max; when everything behind the limit is dropped all permits are free; the innermost service is called only with a permit, at most once per call of the stack; without load_shed, Ready(Ok) means the handle holds a permit. With a map_*, then, and_then or filter outermost a future that has yielded its result has freed its slot; a timed-out future holds it until dropped.", "quantifier": "all stacks of these middlewares, all inner services, closures, clocks, limits, and all histories of any number of handles and futures with drops and caught panics at any moment", "why_tests_cant": "Composition of unboundedly many stacks with unboundedly many handles; a unit test fixes one stack and one schedule.", "anchors": ["tower/src/limit/concurrency/service.rs:poll_ready", "tower/src/limit/concurrency/service.rs:call", "tower/src/limit/concurrency/future.rs:ResponseFuture", "tower/src/timeout/future.rs:poll", "tower/src/load_shed/mod.rs:call", "tower/src/limit/rate/service.rs:poll_ready", "tower/src/filter/mod.rs:call", "tower/src/util/map_response.rs:call", "tower/src/util/map_err.rs:call", "tower/src/util/then.rs:call", "tower/src/util/and_then.rs:call", "tower/src/util/either.rs:poll_ready", "tower/src/util/optional/mod.rs:poll_ready"]}
{"id": "C81", "title": "Polls return", "statement": "No stack of tower's middleware blocks its caller: over services (and closures' futures, discovery streams, load metrics) that return from every poll, every poll_ready, every call and every poll of a response future returns or panics, in every state. This holds for all middleware; for Retry if the policy bounds its retries, for Reconnect if connections do not fail the first time they are polled, for SpawnReady if the service does not unlearn that it is ready, for a balancer if the discovery stream is not ready forever. Otherwise these loops have no bound, and exactly when they go on is characterised: Retry goes round once for each attempt with an immediate outcome whose retry is granted, waited for, ready and sent at once; Reconnect once for each connection made at once that fails at once; SpawnReady once for each task that is finished before it is looked at.", "quantifier": "all stacks of middleware, all inner services that return, all states (reachable or not), all worlds", "why_tests_cant": "Termination in every state of every stack; a loop that does not end is not something a test can observe as such.", "anchors": ["tower/src/retry/future.rs:ResponseFuture::poll", "tower/src/reconnect/mod.rs:poll_ready", "tower/src/spawn_ready/service.rs:poll_ready", "tower/src/balance/p2c/service.rs:poll_ready", "tower/src/ready_cache/cache.rs:poll_pending", "tower/src/util/oneshot.rs:poll", "tower/src/util/future_service.rs:poll_ready", "tower/src/filter/future.rs:poll", "tower/src/hedge/delay.rs:poll", "tower/src/steer/mod.rs:poll_ready", "tower/src/util/call_all/common.rs:poll_next"]}
{"id": "C82", "title": "Responses answer their requests", "statement": "No stack of tower's middleware mixes up requests. If the services at the bottom give to each request only responses that answer it, a response future of the stack for request q, in whatever state the services were, whatever was called before, between and after, and whenever it is polled, resolves to Ok(v) only if v answers q. This holds for timeout, load_shed, both limits, filters that pass on an equivalent request, steer, hedge and retry whose policies make equivalent copies, reconnect, spawn_ready, balance, boxing, either, optional, future_service and map_err in any nesting; and for a Buffer under any interleaving. For all middleware, including those that change requests or responses (map_*, then, and_then, retry with any policy, hedge with any copies), the results a response future may have for q, and the errors poll_ready may return, are exactly described in terms of those of the service inside: an inner error is passed on wrapped once, and the only errors added are the middleware's own (Elapsed, Overloaded, None, the predicate's, the maker's).", "quantifier": "all stacks of middleware, all services at the bottom, all states, all requests, all worlds and poll schedules; for Buffer all interleavings", "why_tests_cant": "A response delivered to the wrong request needs two requests in flight and a particular schedule; the claim is about all stacks at once.", "anchors": ["tower/src/util/map_request.rs:call", "tower/src/util/map_response.rs:call", "tower/src/util/map_err.rs", "tower/src/util/map_result.rs", "tower/src/util/map_future.rs:call", "tower/src/util/then.rs:call", "tower/src/util/and_then.rs:call", "tower/src/util/either.rs", "tower/src/util/optional/mod.rs", "tower/src/util/future_service.rs", "tower/src/util/boxed", "tower/src/timeout/mod.rs", "tower/src/load_shed/mod.rs", "tower/src/limit/rate/service.rs", "tower/src/limit/concurrency/service.rs", "tower/src/filter/mod.rs", "tower/src/steer/mod.rs", "tower/src/hedge/mod.rs", "tower/src/retry/future.rs", "tower/src/reconnect/mod.rs", "tower/src/spawn_ready/service.rs", "tower/src/balance/p2c/service.rs", "tower/src/load/pending_requests.rs", "tower/src/buffer/service.rs", "tower/src/util/oneshot.rs"]}
{"id": "C83", "title": "What holds under one lawful user holds under every stack; so a rate limit limits the rate under any middleware", "statement": "If something holds of a service and of the requests given to it whenever contract-abiding users have it (one user per clone), then it holds whatever finite stack of tower middleware is put on top of the service and however that stack is used, also for the polls that SpawnReady makes in its background task. In particular: under any stack over RateLimit(num, per), and under a Buffer over such a stack, the wrapped service is called at most (k+1)*num times in any window of length k*per, once for each request that reaches the rate limit.", "quantifier": "all wrapped services that keep the contract, all properties of their state and request history, all stacks of middleware (induction over how the stack is built), all contract-abiding use of the stack, all schedules, clocks, rates and windows", "why_tests_cant": "there are infinitely many stacks and histories; a test fixes one stack and one timing", "anchors": ["tower/src/limit/rate/service.rs: RateLimit", "tower/src/spawn_ready/service.rs: SpawnReady", "tower/src/builder/mod.rs: ServiceBuilder", "tower-service/src/lib.rs: Service"]}
{"id": "C84", "title": "Middleware does not multiply requests", "statement": "For each time that a request is passed to call, a stack of the middleware sends it to the services at the bottom at most once; at most twice as often through a Hedge, and at most n + 1 times as often through a Retry whose policy retries a request at most n times; the bounds multiply when these are stacked. poll_ready sends nothing. It holds for any number of handles and clones, whatever their users do in any order (with or without regard for the contract; futures are polled, polled again after completion, or dropped), and in terms of any weight of the requests also through map_request and filters that change the request.", "quantifier": "all stacks of the modelled middleware, all histories of poll_ready, call, clone, drops and polls with any number of handles and response futures, all requests, all policies with a bound on the retries, and all other events in the world between the steps", "why_tests_cant": "A bound over all histories of all stacks; a test runs one stack through one history", "anchors": ["tower/src/hedge/select.rs: Select::call", "tower/src/hedge/delay.rs: ResponseFuture::poll", "tower/src/retry/mod.rs: Retry::call", "tower/src/retry/future.rs: ResponseFuture::poll", "tower/src/filter/future.rs: AsyncResponseFuture::poll", "tower/src/balance/p2c/service.rs: Balance::call", "tower/src/reconnect/mod.rs: Reconnect::call", "tower/src/load_shed/mod.rs: LoadShed::call", "tower/src/util/oneshot.rs: Oneshot::poll"]}
{"id": "C85", "title": "Buffers inside stacks", "statement": "A handle of a Buffer is a service on which any middleware may be stacked. Whatever the worker and the other handles do to the channel between any two operations: after poll_ready returned Ready(Ok) the handle stays ready until it is called, and call does not panic; a clone has no permit of its own and must be polled ready; response futures do not panic until they are complete, if the futures of the service behind the buffer do not. The handle loses no wake-up, its operations return, its answers are those of the service or the buffer's own errors (a worker's ServiceError or Closed), and each call puts at most one request into the buffer. So everything that is proved for stacks over any such service holds for stacks over a buffer.", "quantifier": "all services behind the buffer, all states of the buffer at each operation, all histories of handles, clones and response futures, all worlds", "why_tests_cant": "The channel is changed by other tasks between any two operations of the handle; a test shows one interleaving", "anchors": ["tower/src/buffer/service.rs: Buffer::poll_ready", "tower/src/buffer/service.rs: Buffer::call", "tower/src/buffer/service.rs: Buffer::clone", "tower/src/buffer/service.rs: Buffer::get_worker_error", "tower/src/buffer/future.rs: ResponseFuture::poll", "tower/src/buffer/worker.rs: Handle::get_error_on_closed"]}
{"id": "C86", "title": "Spawned mocks: is_woken is exact", "statement": "For mocks made with mock::spawn and their clones, in every program that uses them: is_woken() is true exactly if the last poll_ready of this Spawn returned Pending and since then the test allowed at least one call, gave an error or dropped the Handle. If it is false after a Pending, another poll_ready would return Pending too, so a task that polls only when woken misses nothing. The mock keeps a waker of the task exactly while it is waiting and was not woken. A clone has a task of its own that is not woken. A Spawn passes poll_ready and call of any service on, and clears only its own flag. Everything said of mocks (C55) holds for spawned ones.", "quantifier": "all histories of spawned mocks, clones, Handle and responses without a panic, all clones, all services (for passing on)", "why_tests_cant": "which of many wakers are woken depends on the whole history of polls, clones, drops, allow() and errors", "anchors": ["tower-test/src/mock/spawn.rs: Spawn", "tower-test/src/mock/mod.rs: spawn", "tower-test/src/mock/mod.rs: Handle::allow"]}
{"id": "C87", "title": "A service may be exchanged for one that behaves the same, under any stack", "statement": "Call two services the same if no user that keeps the contract can tell them apart: for every sequence of poll_ready, call, polls of response futures and clones, in every world, the results, the effects on the world and the panics are equal. Then every layer of tower except buffer, every ServiceBuilder chain of such layers (any length, any arguments), Hedge, Either, Optional, oneshot, call_all, PendingRequests, PeakEwma and Constant turn the same services into the same services; the maker of a Reconnect, its connections and the service a FutureService waits for may be exchanged in the same way, and so may the services of a Steer that are not cloned, and the endpoints of a balancer that have a constant load each. So what a stack does depends only on how the service below behaves towards lawful users, never on its identity or on what it would do if misused. A service that is the same as one that keeps the contract keeps it too.", "quantifier": "all pairs of services, all layers and chains with all arguments, all sequences of operations with any number of clones and futures, all worlds before each operation", "why_tests_cant": "equality of behaviour ranges over all programs that use the stack and over all services at its bottom", "anchors": ["tower/src/builder/mod.rs: ServiceBuilder", "tower/src/retry/mod.rs: Retry", "tower/src/load_shed/mod.rs: LoadShed", "tower/src/limit/concurrency/service.rs: ConcurrencyLimit", "tower/src/limit/rate/service.rs: RateLimit", "tower/src/timeout/mod.rs: Timeout", "tower/src/filter/mod.rs: Filter", "tower/src/hedge/mod.rs: Hedge", "tower/src/util/either.rs: Either", "tower/src/util/oneshot.rs: Oneshot", "tower/src/reconnect/mod.rs: Reconnect", "tower/src/util/future_service.rs: FutureService", "tower/src/steer/mod.rs: Steer", "tower/src/util/call_all/common.rs: CallAll", "tower/src/balance/p2c/service.rs: Balance", "tower/src/ready_cache/cache.rs: ReadyCache"]}
{"id": "C88", "title": "Layers that change nothing, and equal stacks", "statement": "No user that keeps the contract can see a difference between: a service and the service boxed (boxed, boxed_clone, boxed_clone_sync); a service and the service under option_layer(None); option_layer(Some(l)) and layer(l); a service and the service under map_request, map_response or map_err with the identity; two map_request, map_response or map_err in a row and one with the composed closure (outer first for requests, inner first for responses and errors); then with a closure answering at once and map_result, and_then with one succeeding at once and map_response; filter with a predicate that accepts everything and map_request; a service and the service under a Retry whose policy never retries; load_shed twice and once (up to the type of error); map_request outside and inside of timeout, concurrency_limit and map_response; map_response outside and inside of timeout and map_err. A layer that makes no difference makes none anywhere in a stack.", "quantifier": "all services, closures (with effects), policies, limits and durations, all chains around, all sequences of operations with any number of clones and futures, all worlds", "why_tests_cant": "equality of behaviour for all services, all closures and all histories", "anchors": ["tower/src/util/boxed/sync.rs: BoxService", "tower/src/builder/mod.rs: ServiceBuilder::option_layer", "tower/src/util/map_request.rs: MapRequest", "tower/src/util/map_response.rs: MapResponse", "tower/src/util/map_err.rs: MapErr", "tower/src/util/then.rs: Then", "tower/src/util/and_then.rs: AndThen", "tower/src/filter/mod.rs: Filter", "tower/src/retry/future.rs: ResponseFuture", "tower/src/load_shed/mod.rs: LoadShed", "tower/src/timeout/mod.rs: Timeout"]}
{"id": "C89", "title": "No layer makes a request hang", "statement": "Call an environment fair if what is waited for outside comes about: time passes, permits are granted, the buffer's worker goes on, the runtime polls its tasks. If a service does not hang (used by the contract, each of its handles that is polled again and again becomes ready or returns an error after finitely many polls, call returns, and each response future finishes after finitely many polls), then neither does the service under any layer of tower, under any chain of ServiceBuilder methods of any length, under Hedge, Either or Optional, nor Reconnect (if new connections do not fail before they were ready once; otherwise its poll_ready can loop forever) or FutureService over parts that do not hang; a oneshot request to such a stack is answered after finitely many polls. What a layer adds of its own is: for rate_limit that time passes; for concurrency_limit that permits are granted; for buffer that the channel makes room and the worker replies; for retry that the policy's futures finish and that it gives up at some time; for spawn_ready that the runtime runs the task and the service stays ready; for closures that return futures that these finish. A response of Timeout arrives even if that of the service inside never does.", "quantifier": "all services, layers, chains, closures, policies, limits, all histories of a handle and its clones, all fair sequences of worlds (between two polls the world may change in any way)", "why_tests_cant": "a liveness property: about all infinite fair schedules, for stacks of any height", "anchors": ["tower/src/limit/rate/service.rs: RateLimit::poll_ready", "tower/src/limit/concurrency/service.rs: ConcurrencyLimit::poll_ready", "tower/src/retry/future.rs: ResponseFuture::poll", "tower/src/timeout/future.rs: ResponseFuture::poll", "tower/src/buffer/service.rs: Buffer", "tower/src/spawn_ready/service.rs: SpawnReady::poll_ready", "tower/src/hedge/select.rs: ResponseFuture::poll", "tower/src/filter/future.rs: AsyncResponseFuture::poll", "tower/src/util/oneshot.rs: Oneshot::poll", "tower/src/builder/mod.rs: ServiceBuilder"]}
{"id": "C90", "title": "call_all comes to an end", "statement": "If the service does not hang (C89) and the stream gives finitely many requests, each after finitely many polls, then the stream of responses of call_all, in either version, ends after finitely many polls (polled again and again, as collect() does), in every fair environment in which the executor wakes the futures of the queue when they can go on: neither the service, nor the stream of requests, nor a slow response in front of finished ones is waited for forever, and no poll loops forever. This also holds if the service fails in between, and over any chain of layers.", "quantifier": "all services, streams of any finite length, schedules of the queue, fair sequences of worlds (between two polls the world may change in any way), chains of layers", "why_tests_cant": "a liveness property: about all infinite fair schedules and streams of any length", "anchors": ["tower/src/util/call_all/common.rs: CallAll::poll_next", "tower/src/util/call_all/ordered.rs: CallAll", "tower/src/util/call_all/unordered.rs: CallAllUnordered", "tower/src/util/mod.rs: ServiceExt::call_all"]}
{"id": "C91", "title": "A balancer keeps its endpoints and does not hang while it has a good one", "statement": "(1) The balancer loses nothing: the endpoint that discovery inserted last for a key is held by the balancer (waiting or ready) until discovery removes or replaces it, unless its own poll_ready fails; whatever the user does with the balancer and whatever happens to other endpoints. (2) If the balancer is pending in every poll, forever, in a fair environment in which the executor wakes the waiting endpoints, discovery has come to rest and no endpoint hangs, then from some time on it has no endpoints. (3) So, if discovery yields finitely many changes after which some key has an endpoint that does not fail, a balancer that is polled again and again is ready (or returns the error of discovery) after finitely many polls; no slow or failing endpoint keeps it from that. (4) So a new balancer, without endpoints yet, whose discovery will come up with an endpoint that does not fail, does not hang: poll_ready gets ready after finitely many polls, every time, call returns, and the response futures complete.", "quantifier": "all endpoints (readiness behaviours), discoveries of any finite length, random generators, load functions, schedules of the waiting endpoints, fair sequences of worlds, points in the balancer's life", "why_tests_cant": "a liveness property: about all infinite fair schedules, any number of endpoints", "anchors": ["tower/src/balance/p2c/service.rs: Balance::poll_ready", "tower/src/balance/p2c/service.rs: update_pending_from_discover, promote_pending_to_ready", "tower/src/ready_cache/cache.rs: ReadyCache::poll_pending, push, check_ready_index, call_ready_index"]}
{"id": "C92", "title": "Buffer: every request it accepted is answered", "statement": "Take a Buffer around a service that does not hang, a worker task that its executor polls when it was woken (and goes on with), and a service that wakes the worker when it may be ready. Every request that call put into the buffer before the worker died is decided after finitely many steps, whatever any number of other handles and response futures do meanwhile: its response future does not wait for the buffer any more. Polled again and again, the future gives a response or an error. The request is passed on to the service, unless its future is dropped, the service fails or the worker dies. When all handles are dropped, the worker task comes to its end.", "quantifier": "every service, every bound, every infinite execution: interleavings of any number of handles, clones, response futures, the worker, its death, wake-ups; every notion of fairness of the environment", "why_tests_cant": "Liveness: a test sees one schedule in which the answer comes, not that no infinite schedule keeps it back (later requests overtaking, cancellations, a worker that parks without a waker).", "anchors": ["tower/src/buffer/worker.rs: Worker::poll, poll_next_msg, failed", "tower/src/buffer/service.rs: Buffer::poll_ready, Buffer::call", "tower/src/buffer/future.rs: ResponseFuture::poll"]}
{"id": "C93", "title": "whoever waits for a slot of a buffer gets one", "statement": "A `Buffer` with a bound of at least one, around a service that does not hang, whose worker is polled when it is woken: if every task that waits for a handle polls it after it was woken (or drops it), and every task that was told `Ready` calls (or drops the handle) some day, then a handle whose `poll_ready` returned `Pending` is at last told `Ready`: no other handle, however often it calls, keeps it out for ever. If the service does not fail, the worker is not dropped and the handle is kept, what it is told is `Ready(Ok)`.", "quantifier": "every inner service that does not hang, every bound of at least one, every number of handles and clones, every infinite schedule of the worker, the handles, the response futures and the wake-ups that is fair in the sense stated", "why_tests_cant": "A test can show that one waiter gets its slot in one schedule. That no schedule of the other handles starves it is a statement about infinite executions.", "anchors": ["tower/src/buffer/service.rs: Buffer::poll_ready, Buffer::call", "tower/src/buffer/worker.rs: Worker::poll, Worker::poll_next_msg"]}
{"id": "C94", "title": "whoever waits for a permit of a concurrency limit gets one", "statement": "The clones of a `ConcurrencyLimit` with a limit of at least one: if every handle that was woken is polled (or dropped), every handle that holds a permit is called some day (or dropped), and response futures do not live for ever, then a handle whose `poll_ready` waits for a permit gets one (or is dropped), whatever the other handles do and however often they are polled and called.", "quantifier": "every limit of at least one, every inner service, every number of handles (clones and limits that share the semaphore), every infinite schedule of polls, calls, drops and panics that is fair in the sense stated", "why_tests_cant": "C73 counts how many permits a waiter has to see given up. That it is not starved in any infinite schedule needs an argument over all of them.", "anchors": ["tower/src/limit/concurrency/service.rs: ConcurrencyLimit::poll_ready, ConcurrencyLimit::call", "tower/src/limit/concurrency/future.rs: ResponseFuture"]}
{"id": "C95", "title": "clients of a buffer, and of a buffered balancer, are served", "statement": "(1) End to end: a client that asks a handle of a Buffer whether it is ready, calls it when it is, keeps the response future and polls it, has its request accepted, sent to the inner service and answered, if the inner service does not hang, fail or panic and the executor is fair. (2) A Balance inside a Buffer fails only if discovery fails, and panics only if discovery, an endpoint or the load function panics. (3) So in `Buffer` around `Balance`: if discovery makes finitely many changes and will come up with an endpoint that does not fail, no endpoint hangs or panics, and what is ready stays ready, every client that does not give up gets an answer, however many clients there are and whatever the other endpoints do.", "quantifier": "every bound of at least one, every number of handles, clients and endpoints, every discovery, load function and random generator, every infinite schedule of client, worker and executor steps that is fair in the sense stated", "why_tests_cant": "It is about all infinite fair interleavings of the clients, the worker, the discovery and the endpoints' wake-ups.", "anchors": ["tower/src/buffer/service.rs: Buffer::poll_ready, Buffer::call", "tower/src/buffer/worker.rs: Worker::poll", "tower/src/buffer/future.rs: ResponseFuture::poll", "tower/src/balance/p2c/service.rs: Balance::poll_ready, Balance::call"]}
{"id": "C96", "title": "load shed over a rate limit sheds exactly the excess", "statement": "With ServiceBuilder::new().load_shed().rate_limit(num, per): poll_ready is never Pending and call never panics of its own, even without poll_ready. At most (k+1)*num requests reach the service inside in any window of length k*per. A user that asks poll_ready and then calls, at once or later, has its request shed exactly if the service inside was not ready when it was asked, or num requests were already passed on in the current period and its timer has not fired; every other request is passed on, and its result is that of the service. With timers that fire on time nothing is shed unless num requests were passed on in the last `per` before the stack was asked. A shed request touches nothing and is answered Overloaded.", "quantifier": "every rate, every inner service, every clock (timers may be late), every history of polls and calls, in turn or out of turn, every two worlds in which the stack is polled and called", "why_tests_cant": "Whether a request is shed depends on the whole history of calls, polls and clock readings before it.", "anchors": ["tower/src/load_shed/mod.rs: LoadShed::poll_ready, LoadShed::call", "tower/src/load_shed/future.rs: ResponseFuture::poll", "tower/src/limit/rate/service.rs: RateLimit::poll_ready, RateLimit::call"]}
{"id": "C97", "title": "load shed over a buffer sheds exactly when the slots are taken", "statement": "With ServiceBuilder::new().load_shed().buffer(bound): at any moment in the life of an open buffer, with any number of handles, poll_ready of a handle is Ready(Ok), and the request it is given next goes into the buffer if the requests in the buffer and the slots that other handles hold (reserved, or assigned to a handle that was shed and has not been asked again) are fewer than bound; otherwise it is answered Overloaded and nothing is touched. With one handle: shed exactly if bound requests are in the buffer. A closed buffer is reported as such, not as overloaded. call never panics, even without poll_ready; poll_ready is never Pending.", "quantifier": "every bound, inner service, number of handles, every history of the handles, the worker and the response futures, every moment of it; every later moment for the call", "why_tests_cant": "How many slots are free depends on the whole history of all handles and of the worker.", "anchors": ["tower/src/load_shed/mod.rs: LoadShed::poll_ready, LoadShed::call", "tower/src/buffer/service.rs: Buffer::poll_ready, Buffer::call"]}
{"id": "C98", "title": "a middleware whose trigger never fires is not noticed", "statement": "Timeout over a clock whose timers do not fire, and LoadShed over a service that is never Pending, change nothing but the type of the error; a user that makes fewer calls than a period of a rate limit allows sees what it would see without the limit, whenever it makes them; a concurrency limit whose semaphore always has a permit is not noticed; Either is the service it holds, on either side; Optional with a service only wraps the errors; Constant (load) is its service; Steer over a single service that stays ready until it is called is that service.", "quantifier": "every inner service, every sequence of operations of a lawful user (polls of readiness, calls, polls of response futures, clones), every world between them, every clock and rate", "why_tests_cant": "A test compares a few runs; that two stacks behave alike quantifies over all services and all uses.", "anchors": ["tower/src/timeout/mod.rs: Timeout", "tower/src/load_shed/mod.rs: LoadShed", "tower/src/limit/rate/service.rs: RateLimit", "tower/src/util/either.rs: Either", "tower/src/util/optional/mod.rs: Optional", "tower/src/load/constant.rs: Constant", "tower/src/steer/mod.rs: Steer"]}
