{"id": "C01", "title": "A Range is the sequence of consecutive integers from left to right", "statement": "For Range(left,dir,right), iteration yields left, left\u00b11, ..., right in order ('to' ascending, 'downto' descending), or nothing when the bounds are in the wrong order; len() is the number of items yielded; r[i] is the i-th item with Python negative indexing and IndexError outside; v in r holds exactly for the yielded values; reversed() yields the reverse.", "quantifier": "all integers left, right, i, v and both directions", "why_tests_cant": "The integers (bounds, widths, indexes) are unbounded, so no finite set of examples covers them; boundary conditions (null ranges, direction, sign) interact.", "anchors": ["src/cocotb/types/_range.py::Range.__init__", "src/cocotb/types/_range.py::Range.__len__", "src/cocotb/types/_range.py::Range.__getitem__", "src/cocotb/types/_range.py::Range.__contains__", "src/cocotb/types/_range.py::Range.__iter__", "src/cocotb/types/_range.py::Range.__reversed__"]}
{"id": "C02", "title": "Range.index is the inverse of Range indexing", "statement": "r.index(v) returns the unique position i with r[i] == v when v is in r and raises ValueError otherwise; with start/stop given it searches only positions start <= i < stop (Python Sequence contract, missing bound meaning the end of the sequence).", "quantifier": "all ranges, values and optional start/stop positions", "why_tests_cant": "The integers (bounds, widths, indexes) are unbounded, so no finite set of examples covers them; boundary conditions (null ranges, direction, sign) interact.", "anchors": ["src/cocotb/types/_range.py::Range.index"]}
{"id": "C03", "title": "Range construction, conversion, slicing and equality are consistent", "statement": "The two-argument form picks the direction that makes the range non-null; from_range(to_range(r)), copy and deepcopy give back a range with the same left, direction and right; slicing selects exactly the items Python list slicing selects when the slice step is \u00b11 and raises ValueError for another step; two Ranges are equal iff they yield the same items; equal ranges hash alike.", "quantifier": "all ranges, all Python ranges, all slices", "why_tests_cant": "The integers (bounds, widths, indexes) are unbounded, so no finite set of examples covers them; boundary conditions (null ranges, direction, sign) interact.", "anchors": ["src/cocotb/types/_range.py::Range.__init__", "src/cocotb/types/_range.py::Range.from_range", "src/cocotb/types/_range.py::Range.to_range", "src/cocotb/types/_range.py::Range.__getitem__", "src/cocotb/types/_range.py::Range.__eq__", "src/cocotb/types/_range.py::Range.__hash__", "src/cocotb/types/_range.py::Range.__copy__", "src/cocotb/types/_range.py::_guess_step", "src/cocotb/types/_range.py::_direction_to_step", "src/cocotb/types/_range.py::_step_to_direction"]}
{"id": "C04", "title": "Logic construction accepts exactly its literals and str() round-trips", "statement": "Logic(v) succeeds exactly for the nine letters in either case, '-', 0/1, booleans and Logic values, otherwise raises ValueError (or TypeError for other types); Logic(str(x)) == x; Logic(x) == x; Bit accepts exactly the literals of 0 and 1; equality with literals is equality of the denoted value.", "quantifier": "all strings, integers, booleans and Logic/Bit values", "why_tests_cant": "Infinitely many strings and integers must be rejected.", "anchors": ["src/cocotb/types/_logic.py::Logic.__new__", "src/cocotb/types/_logic.py::_literal_repr", "src/cocotb/types/_logic.py::Logic.__str__", "src/cocotb/types/_logic.py::Logic.__eq__", "src/cocotb/types/_logic.py::Bit"]}
{"id": "C05", "title": "The four Logic operators implement IEEE-1164 nine-valued logic", "statement": "& | ^ ~ agree with Boolean logic on 0/1 (with L,H read as 0,1); 0/L dominates &, 1/H dominates |; an unknown operand yields U if a U is involved and X otherwise unless dominated; & | ^ are commutative and associative; De Morgan holds; ~ is an involution up to resolution; the result is always one of U X 0 1.", "quantifier": "all values (and pairs and triples) of the nine", "why_tests_cant": "Laws over triples and composite expressions of any depth built from the operators.", "anchors": ["src/cocotb/types/_logic.py::Logic.__and__", "src/cocotb/types/_logic.py::Logic.__or__", "src/cocotb/types/_logic.py::Logic.__xor__", "src/cocotb/types/_logic.py::Logic.__invert__"]}
{"id": "C06", "title": "Bit is closed under the operators and is exactly Boolean algebra", "statement": "Bit & Bit, Bit | Bit, Bit ^ Bit and ~Bit never raise and correspond to and/or/xor/not on booleans; every expression built from Bits evaluates to the Bit of the Boolean expression; mixing Bit and Logic gives a Logic.", "quantifier": "all expressions of any depth over Bits", "why_tests_cant": "Unbounded expression depth.", "anchors": ["src/cocotb/types/_logic.py::Bit", "src/cocotb/types/_logic.py::Logic.__and__", "src/cocotb/types/_logic.py::Logic.__rand__", "src/cocotb/types/_logic.py::Logic.__or__", "src/cocotb/types/_logic.py::Logic.__xor__", "src/cocotb/types/_logic.py::Logic.__invert__"]}
{"id": "C07", "title": "Logic to int/bool conversion succeeds exactly for resolvable values, and the two agree", "statement": "With no COCOTB_RESOLVE_X, int(x) and bool(x) raise ValueError exactly when not x.is_resolvable and otherwise int(x) == int(bool(x)); with a resolver configured int(x) and bool(x) agree whenever int(x) succeeds.", "quantifier": "all values and all COCOTB_RESOLVE_X settings and random streams", "why_tests_cant": "Configuration space crossed with the random stream of the resolver.", "anchors": ["src/cocotb/types/_logic.py::Logic.__int__", "src/cocotb/types/_logic.py::Logic.__bool__", "src/cocotb/types/_logic.py::Logic.is_resolvable", "src/cocotb/types/_resolve.py::RESOLVE_X"]}
{"id": "C08", "title": "resolve() produces the documented values for every resolver", "statement": "resolve('zeros'|'ones'|'random') yields only 0/1; all resolvers keep 0 and 1 and map L,H to 0,1; 'weak' maps W to X and keeps U,X,Z,-; resolving is idempotent, keeps length and range, acts element by element; an unknown resolver name raises ValueError.", "quantifier": "all values, arrays of any length, all resolvers, all random bit streams", "why_tests_cant": "Arrays are unbounded and the random resolver depends on the whole history of draws.", "anchors": ["src/cocotb/types/_resolve.py::get_str_resolver", "src/cocotb/types/_resolve.py::_resolve_tables", "src/cocotb/types/_resolve.py::_random_resolve_table", "src/cocotb/types/_logic.py::Logic.resolve", "src/cocotb/types/_logic_array.py::LogicArray.resolve"]}
{"id": "C09", "title": "from_unsigned accepts exactly the values that fit and to_unsigned gives them back", "statement": "LogicArray.from_unsigned(v, r) succeeds iff 0 <= v < 2**len(r) and len(r) > 0, and then to_unsigned() == v and str() is the len(r)-digit binary numeral of v; otherwise ValueError.", "quantifier": "all integers v, all ranges r", "why_tests_cant": "The integers (bounds, widths, indexes) are unbounded, so no finite set of examples covers them; boundary conditions (null ranges, direction, sign) interact.", "anchors": ["src/cocotb/types/_logic_array.py::LogicArray.from_unsigned", "src/cocotb/types/_logic_array.py::LogicArray.to_unsigned", "src/cocotb/types/_logic_array.py::LogicArray._get_str", "src/cocotb/types/_logic_array.py::LogicArray._get_int"]}
{"id": "C10", "title": "from_signed accepts exactly the values that fit and to_signed gives them back", "statement": "LogicArray.from_signed(v, r) succeeds iff len(r) > 0 and -2**(n-1) <= v < 2**(n-1), and then to_signed() == v; from_signed(to_signed(a)) is a again for every resolved a.", "quantifier": "all integers v, all ranges r, all 0/1 arrays", "why_tests_cant": "The integers (bounds, widths, indexes) are unbounded, so no finite set of examples covers them; boundary conditions (null ranges, direction, sign) interact.", "anchors": ["src/cocotb/types/_logic_array.py::LogicArray.from_signed", "src/cocotb/types/_logic_array.py::LogicArray.to_signed"]}
{"id": "C11", "title": "on_overflow='wrap' keeps exactly the low bits", "statement": "With on_overflow='wrap' from_unsigned/from_signed never raise for a non-null range (from_unsigned for v>=0) and the result reads back as the unique value congruent to v modulo 2**n in the unsigned (signed) window; an unknown on_overflow raises ValueError.", "quantifier": "all integers v, all ranges r", "why_tests_cant": "The integers (bounds, widths, indexes) are unbounded, so no finite set of examples covers them; boundary conditions (null ranges, direction, sign) interact.", "anchors": ["src/cocotb/types/_logic_array.py::LogicArray.from_unsigned", "src/cocotb/types/_logic_array.py::LogicArray.from_signed"]}
{"id": "C12", "title": "LogicArray(int, range) accepts exactly the union of the signed and unsigned windows", "statement": "LogicArray(v, r) succeeds iff len(r) > 0 and -2**(n-1) <= v < 2**n; the stored bits are v mod 2**n; a == v afterwards.", "quantifier": "all integers v, all ranges r", "why_tests_cant": "The integers (bounds, widths, indexes) are unbounded, so no finite set of examples covers them; boundary conditions (null ranges, direction, sign) interact.", "anchors": ["src/cocotb/types/_logic_array.py::LogicArray.__init__", "src/cocotb/types/_logic_array.py::LogicArray.__eq__"]}
{"id": "C13", "title": "LogicArray string construction and str() round-trip", "statement": "LogicArray(s) succeeds iff s with underscores removed and upper-cased only contains UX01ZWLH-; then str() is that normalised string; LogicArray(str(a)) == a; iteration yields the Logic of each character left to right; a length mismatch with range raises ValueError.", "quantifier": "all strings, all arrays", "why_tests_cant": "Strings are unbounded.", "anchors": ["src/cocotb/types/_logic_array.py::LogicArray.__init__", "src/cocotb/types/_logic_array.py::LogicArray.__str__", "src/cocotb/types/_logic_array.py::LogicArray.__iter__"]}
{"id": "C14", "title": "LogicArray to integer conversion succeeds exactly for resolvable arrays and is positional", "statement": "to_unsigned() succeeds iff the array is non-empty and is_resolvable and then equals the sum of bit values times powers of two with the leftmost bit most significant; otherwise ValueError (no COCOTB_RESOLVE_X).", "quantifier": "all arrays of any length", "why_tests_cant": "A corner of the Python integer parser (a leading '-') is only reached for some values of any length.", "anchors": ["src/cocotb/types/_logic_array.py::LogicArray.to_unsigned", "src/cocotb/types/_logic_array.py::LogicArray.to_signed", "src/cocotb/types/_logic_array.py::LogicArray.is_resolvable", "src/cocotb/types/_logic_array.py::LogicArray._get_int"]}
{"id": "C15", "title": "LogicArray bytes round-trip", "statement": "For resolvable arrays to_bytes yields ceil(len/8) bytes and from_bytes(to_bytes(a)) reproduces a when len is a multiple of 8, for both byte orders; from_bytes(b).to_bytes() == b; a length mismatch raises ValueError; big- and little-endian results are reverses of each other.", "quantifier": "all byte strings and arrays", "why_tests_cant": "Unbounded lengths.", "anchors": ["src/cocotb/types/_logic_array.py::LogicArray.to_bytes", "src/cocotb/types/_logic_array.py::LogicArray.from_bytes"]}
{"id": "C16", "title": "LogicArray behaves as a plain sequence of Logic whatever was called before", "statement": "The observable result of every method depends only on the current sequence of Logic values and range, not on which conversions were called before (the three internal representations are never visible).", "quantifier": "all histories of constructor, conversion, getitem, setitem, comparison calls", "why_tests_cant": "Caches are filled lazily, so a stale or mis-chosen representation shows up only after particular call sequences.", "anchors": ["src/cocotb/types/_logic_array.py::LogicArray._get_array", "src/cocotb/types/_logic_array.py::LogicArray._get_str", "src/cocotb/types/_logic_array.py::LogicArray._get_int", "src/cocotb/types/_logic_array.py::LogicArray.__setitem__", "src/cocotb/types/_logic_array.py::LogicArray.__eq__"]}
{"id": "C17", "title": "LogicArray and Array obey the array read/write laws", "statement": "After a[i] = v, a[i] == v and every other index is unchanged; after a[i:j] = vs, a[i:j] == vs and other indexes are unchanged; a[i:j] has range i..j in the array's direction and its element k is a[k]; length and range never change under assignment; out-of-range, wrong-direction and wrong-length accesses raise and change nothing observable.", "quantifier": "all arrays, all index ranges in both directions, all indexes and values", "why_tests_cant": "The integers (bounds, widths, indexes) are unbounded, so no finite set of examples covers them; boundary conditions (null ranges, direction, sign) interact.", "anchors": ["src/cocotb/types/_array.py::Array.__getitem__", "src/cocotb/types/_array.py::Array.__setitem__", "src/cocotb/types/_array.py::Array._translate_index", "src/cocotb/types/_logic_array.py::LogicArray.__getitem__", "src/cocotb/types/_logic_array.py::LogicArray.__setitem__", "src/cocotb/types/_logic_array.py::LogicArray._translate_index"]}
{"id": "C18", "title": "LogicArray bitwise operators act element by element", "statement": "a & b, a | b, a ^ b of equal-length arrays is the elementwise Logic operation in order, ~a elementwise not; different lengths raise ValueError; De Morgan, commutativity and associativity lift; on resolved arrays they agree with integer & | ^ of to_unsigned().", "quantifier": "all arrays of any length", "why_tests_cant": "Unbounded lengths.", "anchors": ["src/cocotb/types/_logic_array.py::LogicArray.__and__", "src/cocotb/types/_logic_array.py::LogicArray.__or__", "src/cocotb/types/_logic_array.py::LogicArray.__xor__", "src/cocotb/types/_logic_array.py::LogicArray.__invert__"]}
{"id": "C19", "title": "LogicArray equality is structural", "statement": "a == b holds iff the arrays have equal length and equal elements, regardless of their ranges; it is reflexive, symmetric and transitive; a == s for a str compares the normalised literal; a == [..] compares elements.", "quantifier": "all pairs of arrays, all call histories", "why_tests_cant": "Equality picks a representation by what happens to be cached.", "anchors": ["src/cocotb/types/_logic_array.py::LogicArray.__eq__"]}
{"id": "C20", "title": "LogicArray formatting is faithful and constant width", "statement": "format(a,'b'/'x'/'o') of a resolvable array is the numeral of to_unsigned() zero-padded to the number of digits needed for len(a), same width for all values of a given length, also with '#' and '_' options; format(a,'d') is the decimal numeral.", "quantifier": "all arrays of any length and all supported format specs", "why_tests_cant": "Unbounded lengths and the interaction of prefix, grouping and padding.", "anchors": ["src/cocotb/types/_logic_array.py::LogicArray.__format__"]}
{"id": "C21", "title": "Array construction, equality, index and count", "statement": "Array(vs) has range 0 to len-1 unless given one of equal length (else ValueError); equality ignores ranges and compares elements; index(v,start,stop) returns the first index in left-to-right order within [start..stop] inclusive whose element equals v, else ValueError; count(v) counts equal elements; changing range keeps elements.", "quantifier": "all arrays, values, bounds", "why_tests_cant": "The integers (bounds, widths, indexes) are unbounded, so no finite set of examples covers them; boundary conditions (null ranges, direction, sign) interact.", "anchors": ["src/cocotb/types/_array.py::Array.__init__", "src/cocotb/types/_array.py::Array.__eq__", "src/cocotb/types/_array.py::Array.range", "src/cocotb/types/_abstract_array.py::AbstractArray.index", "src/cocotb/types/_abstract_array.py::AbstractArray.count"]}
{"id": "C22", "title": "Time to simulator-step conversion honours the rounding mode", "statement": "get_sim_steps(t,unit) is the exact value t*10**(unit-precision) under 'error' and raises ValueError if that is not an integer; 'floor','ceil','round' give the greatest integer below, least above, nearest (ties to even); step count round-trips through get_time_from_sim_steps.", "quantifier": "all rational times, all units, all simulator precisions, all rounding modes", "why_tests_cant": "Rationals and precisions are unbounded; rounding bugs appear only near boundaries.", "anchors": ["src/cocotb/simtime.py::_get_sim_steps", "src/cocotb/simtime.py::_get_time_from_sim_steps", "src/cocotb/simtime.py::convert", "src/cocotb/simtime.py::_get_log_time_scale"]}
{"id": "C23", "title": "Time unit conversion is consistent between units", "statement": "convert(t,u,to=v) scales by the exact power of ten; converting u->v->w equals u->w when no rounding happens; conversion is monotone in every rounding mode; unknown units raise ValueError; unit names are case-insensitive.", "quantifier": "all times, all units", "why_tests_cant": "Unbounded values.", "anchors": ["src/cocotb/simtime.py::convert", "src/cocotb/simtime.py::_ldexp10", "src/cocotb/simtime.py::_get_log_time_scale"]}
{"id": "C24", "title": "A Timer always waits a positive number of steps", "statement": "Timer(t,unit,round_mode) raises ValueError for t <= 0, and otherwise waits the rounded number of steps but never fewer than one.", "quantifier": "all positive and non-positive times, all modes", "why_tests_cant": "Unbounded values; underflow to zero only at particular scales.", "anchors": ["src/cocotb/_gpi_triggers.py::Timer.__init__"]}
{"id": "C25", "title": "Clock generates the configured waveform", "statement": "A running Clock(period, high) drives exactly: level 1 for `high` steps and 0 for period-high steps, alternating forever, starting with the level selected by start_high; both phases are at least one step for accepted parameters, and invalid period/high combinations are rejected.", "quantifier": "all periods, high times, start levels, all times t", "why_tests_cant": "Infinite waveform; parameters unbounded.", "anchors": ["src/cocotb/clock.py::Clock.__init__", "src/cocotb/clock.py::Clock.start"]}
{"id": "C26", "title": "Clock.cycles and ClockCycles wait for exactly n edges", "statement": "clock.cycles(n, edge) returns on the n-th requested edge after the call, for every phase at which it is called and every n >= 1, whichever internal skip strategy is used; ClockCycles(signal,n) counts n edges.", "quantifier": "all n, all phases, all clock parameters", "why_tests_cant": "n is unbounded and the implementation switches strategy on n.", "anchors": ["src/cocotb/clock.py::Clock.cycles", "src/cocotb/_extended_awaitables.py::ClockCycles"]}
{"id": "C27", "title": "The event loop runs every scheduled callback exactly once, in order, unless cancelled", "statement": "Callbacks run in the order they were scheduled (start_next ones before), each exactly once; a callback cancelled before its turn never runs; the loop returns only when nothing is left.", "quantifier": "all sequences of schedule/cancel calls, including those made by running callbacks", "why_tests_cant": "The statement is about every interleaving of tasks, triggers and API calls; tests observe one schedule each.", "anchors": ["src/cocotb/_event_loop.py::EventLoop.run", "src/cocotb/_event_loop.py::EventLoop.schedule", "src/cocotb/_event_loop.py::EventLoop.schedule_left", "src/cocotb/_event_loop.py::ScheduledCallback.cancel"]}
{"id": "C28", "title": "A waiting task has exactly one wake-up pending", "statement": "At every point a task is either waiting on exactly one trigger with exactly one registration, or queued exactly once to run, or running, or not started, or finished; so it is resumed exactly once per wait and never after it is done.", "quantifier": "all schedules of all task programs", "why_tests_cant": "The statement is about every interleaving of tasks, triggers and API calls; tests observe one schedule each.", "anchors": ["src/cocotb/task.py::Task._resume", "src/cocotb/task.py::Task._schedule_resume", "src/cocotb/task.py::Task.cancel", "src/cocotb/task.py::Task._start_soon", "src/cocotb/_base_triggers.py::Trigger._register", "src/cocotb/_base_triggers.py::Trigger._deregister", "src/cocotb/_base_triggers.py::Trigger._do_callbacks"]}
{"id": "C29", "title": "A finished task is final", "statement": "Once done() is true it stays true; result()/exception() always report the same outcome; cancelled() agrees with the outcome; cancel() and kill() on a done task have no effect (cancel returns False).", "quantifier": "all schedules", "why_tests_cant": "The statement is about every interleaving of tasks, triggers and API calls; tests observe one schedule each.", "anchors": ["src/cocotb/task.py::Task.done", "src/cocotb/task.py::Task.result", "src/cocotb/task.py::Task.exception", "src/cocotb/task.py::Task.cancelled", "src/cocotb/task.py::Task._set_outcome", "src/cocotb/task.py::Task.kill"]}
{"id": "C30", "title": "Completion is announced exactly once to everyone waiting", "statement": "When a task finishes each done callback registered before is called exactly once, and every task awaiting it (await task, task.complete, task.join()) is woken exactly once; awaiting a task that is already done does not block forever and yields the same result.", "quantifier": "all schedules", "why_tests_cant": "The statement is about every interleaving of tasks, triggers and API calls; tests observe one schedule each.", "anchors": ["src/cocotb/task.py::Task._set_outcome", "src/cocotb/task.py::TaskComplete._prime", "src/cocotb/task.py::Task.__await__", "src/cocotb/task.py::Task._add_done_callback"]}
{"id": "C31", "title": "Cancellation is always delivered and never silently lost", "statement": "After cancel() returns True the task's next step sees CancelledError at its await, it is no longer waiting on its former trigger, and it ends CANCELLED, or ERRORED if its code swallows the cancellation; it can never end FINISHED with a normal result.", "quantifier": "all schedules and all reactions of the cancelled code", "why_tests_cant": "The statement is about every interleaving of tasks, triggers and API calls; tests observe one schedule each.", "anchors": ["src/cocotb/task.py::Task.cancel", "src/cocotb/task.py::Task._resume", "src/cocotb/task.py::Task._uncancel"]}
{"id": "C32", "title": "Triggers are primed exactly while somebody waits", "statement": "A trigger's underlying mechanism is enabled when the first waiter registers and disabled when the last waiter is removed before firing; firing wakes all waiters registered at that moment, once each, in registration order, and none registered later.", "quantifier": "all histories of register/deregister/fire on any trigger", "why_tests_cant": "The statement is about every history of operations; tests only exercise a few short histories.", "anchors": ["src/cocotb/_base_triggers.py::Trigger._register", "src/cocotb/_base_triggers.py::Trigger._deregister", "src/cocotb/_base_triggers.py::Trigger._do_callbacks", "src/cocotb/_base_triggers.py::Trigger._react"]}
{"id": "C33", "title": "Event: no lost and no spurious wake-ups", "statement": "Event.set() wakes every task waiting at that time and leaves the event set; waiting on a set event returns without blocking; a task waiting on the event is woken only by set(); after clear() new waiters block until the next set(); is_set() reports the last of set()/clear().", "quantifier": "all schedules of set/clear/wait/cancel by any number of tasks", "why_tests_cant": "The statement is about every interleaving of tasks, triggers and API calls; tests observe one schedule each.", "anchors": ["src/cocotb/_base_triggers.py::Event.set", "src/cocotb/_base_triggers.py::Event.clear", "src/cocotb/_base_triggers.py::Event.wait", "src/cocotb/_base_triggers.py::Event.is_set", "src/cocotb/_base_triggers.py::_Event._prime"]}
{"id": "C34", "title": "Lock: mutual exclusion", "statement": "At any time at most one acquire has been granted and not yet released; locked() is true exactly while one is; release() of an unlocked lock raises RuntimeError and changes nothing.", "quantifier": "all schedules of acquire/release/cancel by any number of tasks", "why_tests_cant": "The statement is about every interleaving of tasks, triggers and API calls; tests observe one schedule each.", "anchors": ["src/cocotb/_base_triggers.py::Lock.release", "src/cocotb/_base_triggers.py::Lock._prime_lock", "src/cocotb/_base_triggers.py::Lock._unprime_lock", "src/cocotb/_base_triggers.py::Lock._acquire_and_fire", "src/cocotb/_base_triggers.py::Lock.locked"]}
{"id": "C35", "title": "Lock: grants are first-come first-served", "statement": "Pending acquires are granted in the order they were made, skipping those cancelled; a release with pending acquires hands the lock directly to the oldest one, so no newcomer overtakes.", "quantifier": "all schedules", "why_tests_cant": "The statement is about every interleaving of tasks, triggers and API calls; tests observe one schedule each.", "anchors": ["src/cocotb/_base_triggers.py::Lock.release", "src/cocotb/_base_triggers.py::Lock._prime_lock", "src/cocotb/_base_triggers.py::Lock._unprime_lock"]}
{"id": "C36", "title": "Lock: a lock is never stranded", "statement": "If every task that acquires the lock eventually releases it, and cancelled tasks do not hold it, then a free lock is always obtainable: the lock is never left locked by a task that was cancelled before its acquire returned.", "quantifier": "all schedules including cancellation", "why_tests_cant": "The statement is about every interleaving of tasks, triggers and API calls; tests observe one schedule each.", "anchors": ["src/cocotb/_base_triggers.py::Lock.release", "src/cocotb/_base_triggers.py::_Lock._unprime", "src/cocotb/task.py::Task.cancel"]}
{"id": "C37", "title": "Queue capacity is never exceeded", "statement": "For maxsize > 0 qsize() never exceeds maxsize; put_nowait raises QueueFull exactly when full and get_nowait QueueEmpty exactly when empty, leaving the queue unchanged; maxsize <= 0 is unbounded; full()/empty() agree with qsize().", "quantifier": "all histories of put/get by any number of tasks", "why_tests_cant": "The statement is about every history of operations; tests only exercise a few short histories.", "anchors": ["src/cocotb/queue.py::AbstractQueue.put_nowait", "src/cocotb/queue.py::AbstractQueue.get_nowait", "src/cocotb/queue.py::AbstractQueue.full", "src/cocotb/queue.py::AbstractQueue.empty"]}
{"id": "C38", "title": "Queue delivers every item exactly once", "statement": "The items put are exactly the items got plus the items still in the queue: nothing lost, duplicated or invented, for Queue, LifoQueue and PriorityQueue, including with cancelled putters/getters.", "quantifier": "all histories", "why_tests_cant": "The statement is about every history of operations; tests only exercise a few short histories.", "anchors": ["src/cocotb/queue.py::AbstractQueue", "src/cocotb/queue.py::Queue", "src/cocotb/queue.py::LifoQueue", "src/cocotb/queue.py::PriorityQueue"]}
{"id": "C39", "title": "Queue ordering", "statement": "Queue returns items in the order they were put, LifoQueue the most recently put item still inside, PriorityQueue always a minimal item.", "quantifier": "all histories, all items with a total order", "why_tests_cant": "The statement is about every history of operations; tests only exercise a few short histories.", "anchors": ["src/cocotb/queue.py::Queue._get", "src/cocotb/queue.py::LifoQueue._get", "src/cocotb/queue.py::PriorityQueue._get", "src/cocotb/queue.py::PriorityQueue._put"]}
{"id": "C40", "title": "Queue has no lost wake-ups", "statement": "While the queue is non-empty some waiting getter has been woken (or there is none waiting) and while it is not full some waiting putter has been woken: no task sleeps forever on a condition that is satisfied.", "quantifier": "all schedules, including cancellation of waiting tasks", "why_tests_cant": "The statement is about every interleaving of tasks, triggers and API calls; tests observe one schedule each.", "anchors": ["src/cocotb/queue.py::AbstractQueue._wakeup_next", "src/cocotb/queue.py::AbstractQueue.put", "src/cocotb/queue.py::AbstractQueue.get"]}
{"id": "C41", "title": "select() returns the first awaitable to complete", "statement": "select returns index and result of the first awaitable that completed (its exception is re-raised), and every other one has finished being cancelled by then.", "quantifier": "all numbers of awaitables, all completion orders, all cancel behaviours", "why_tests_cant": "The statement is about every interleaving of tasks, triggers and API calls; tests observe one schedule each.", "anchors": ["src/cocotb/_concurrent_waiters.py::select", "src/cocotb/_concurrent_waiters.py::_wait"]}
{"id": "C42", "title": "gather() returns all results in argument order or the first failure", "statement": "gather returns the results in argument order if all succeed, whatever order they finish in; otherwise it re-raises the exception of the first to fail after all others have finished.", "quantifier": "all numbers of awaitables, all completion orders and outcomes", "why_tests_cant": "The statement is about every interleaving of tasks, triggers and API calls; tests observe one schedule each.", "anchors": ["src/cocotb/_concurrent_waiters.py::gather", "src/cocotb/_concurrent_waiters.py::_wait"]}
{"id": "C43", "title": "wait() returns exactly when its condition is met and leaves nothing running", "statement": "wait(..., return_when) returns only when all its tasks are done; the index is that of the first completed / first failed / None as documented; remaining tasks are cancelled exactly when the condition is met or the caller is cancelled; user tasks passed in are not cancelled.", "quantifier": "all numbers of awaitables, completion orders, caller cancellations", "why_tests_cant": "The statement is about every interleaving of tasks, triggers and API calls; tests observe one schedule each.", "anchors": ["src/cocotb/_concurrent_waiters.py::wait", "src/cocotb/_concurrent_waiters.py::_wait"]}
{"id": "C44", "title": "TaskManager leaves its block only when every child is done", "statement": "The async-with block exits only when all children started in it are done, however they and the block end (success, error, cancellation of the parent, repeated cancellation).", "quantifier": "all schedules, all children outcomes", "why_tests_cant": "The statement is about every interleaving of tasks, triggers and API calls; tests observe one schedule each.", "anchors": ["src/cocotb/_task_manager.py::TaskManager.__aexit__", "src/cocotb/_task_manager.py::TaskManager._done_callback", "src/cocotb/_task_manager.py::TaskManager.start_soon"]}
{"id": "C45", "title": "TaskManager reports every failure and cancels on error", "statement": "The exceptions raised by children and block are all in the raised group and nothing else; a child failing without continue_on_error cancels all other children and the block exactly once; with continue_on_error it cancels nothing; tasks cannot be added before entering, after finishing, after an error or from another task.", "quantifier": "all schedules, all outcomes", "why_tests_cant": "The statement is about every interleaving of tasks, triggers and API calls; tests observe one schedule each.", "anchors": ["src/cocotb/_task_manager.py::TaskManager._done_callback", "src/cocotb/_task_manager.py::TaskManager._cancel", "src/cocotb/_task_manager.py::TaskManager.__aexit__", "src/cocotb/_task_manager.py::TaskManager.start_soon"]}
{"id": "C46", "title": "Deferred writes: the last value written to a signal before the write phase is the one applied", "statement": "Within one evaluation each signal written any number of times is driven at most once, with the value (and action) last written, and signals are driven in the order of their last write.", "quantifier": "all sequences of writes to any set of signals", "why_tests_cant": "The statement is about every history of operations; tests only exercise a few short histories.", "anchors": ["src/cocotb/handle.py::_schedule_write", "src/cocotb/handle.py::_apply_scheduled_writes", "src/cocotb/handle.py::_do_writes_callback"]}
{"id": "C47", "title": "No write is lost, applied early, or applied in the read-only phase", "statement": "Every deferred write is applied in the next read-write phase and not before; immediate, force, freeze and release actions are applied at once; any write in the read-only phase raises RuntimeError and has no effect; writes in the read-write phase are applied immediately.", "quantifier": "all sequences of writes and phase changes", "why_tests_cant": "The statement is about every history of operations; tests only exercise a few short histories.", "anchors": ["src/cocotb/handle.py::_schedule_write", "src/cocotb/handle.py::ValueObjectBase.value", "src/cocotb/handle.py::_apply_scheduled_writes"]}
{"id": "C48", "title": "Assigning integers to signals accepts exactly the representable values", "statement": "Assigning an int to a logic array, integer, or enum object succeeds iff it fits the object's width and signedness and then drives exactly those bits (value mod 2**n for logic arrays); otherwise ValueError/OverflowError and nothing is driven.", "quantifier": "all widths, signedness and integer values", "why_tests_cant": "The integers (bounds, widths, indexes) are unbounded, so no finite set of examples covers them; boundary conditions (null ranges, direction, sign) interact.", "anchors": ["src/cocotb/handle.py::LogicArrayObject._set_value", "src/cocotb/handle.py::IntegerObject._set_value", "src/cocotb/handle.py::EnumObject._set_value", "src/cocotb/handle.py::_SignednessObjectMixin"]}
{"id": "C49", "title": "Array handle assignment writes each element once, in order", "statement": "Assigning a list to an array object raises on length mismatch and otherwise assigns element k of the list to the k-th index of the object's range; reading returns the elements in the same order.", "quantifier": "all array ranges (any direction), nested arrays", "why_tests_cant": "The integers (bounds, widths, indexes) are unbounded, so no finite set of examples covers them; boundary conditions (null ranges, direction, sign) interact.", "anchors": ["src/cocotb/handle.py::ArrayObject._set_value", "src/cocotb/handle.py::ArrayObject.get"]}
{"id": "C50", "title": "Regression runs every selected test exactly once, in stage order", "statement": "Each registered test matching a filter (all if no filter) is recorded exactly once, in non-decreasing stage order and registration order within a stage (without random ordering); others never; tear-down happens once, after the last.", "quantifier": "all lists of tests, filters, outcomes", "why_tests_cant": "The statement is about every history of operations; tests only exercise a few short histories.", "anchors": ["src/cocotb/regression.py::RegressionManager.start_regression", "src/cocotb/regression.py::RegressionManager._execute", "src/cocotb/regression.py::RegressionManager._tear_down"]}
{"id": "C51", "title": "Regression counters add up", "statement": "passed + failures + skipped + xfailed equals the number of recorded results, equals count-1, and equals total_tests at the end; each counter equals the number of results with that outcome.", "quantifier": "all lists of tests and outcomes", "why_tests_cant": "The statement is about every history of operations; tests only exercise a few short histories.", "anchors": ["src/cocotb/regression.py::RegressionManager._record_test_passed", "src/cocotb/regression.py::RegressionManager._record_test_failed", "src/cocotb/regression.py::RegressionManager._record_test_skipped", "src/cocotb/regression.py::RegressionManager._record_test_xfail", "src/cocotb/regression.py::RegressionManager._record_test_init_failed"]}
{"id": "C52", "title": "Test scoring follows expect_fail / expect_error", "statement": "A test passes iff it completes normally and nothing was expected (or it ended with TestSuccess); is skipped/xfailed on the pytest skip/xfail exceptions whatever was expected; is xfailed iff the exception matches expect_error, or is a failure and expect_fail is set without expect_error; every other combination fails.", "quantifier": "all exceptions and all expectation settings", "why_tests_cant": "The space of exception types and expectation sets is unbounded.", "anchors": ["src/cocotb/regression.py::RegressionManager._score_test", "src/cocotb/regression.py::handle_pytest_exception_matchers"]}
{"id": "C53", "title": "COCOTB_MAX_FAILURES stops the regression after that many failures", "statement": "With a limit k>0, once k failures are recorded no further test is run; all remaining non-skipped tests are reported as failed; with no limit all tests run.", "quantifier": "all test lists, outcomes, limits", "why_tests_cant": "The statement is about every history of operations; tests only exercise a few short histories.", "anchors": ["src/cocotb/regression.py::RegressionManager._record_test_failed", "src/cocotb/regression.py::RegressionManager._execute", "src/cocotb/regression.py::RegressionTerminated"]}
{"id": "C54", "title": "Each test's random seed depends only on its name and the regression seed", "statement": "The seed of a test is regression seed + SHA1(fullname), independent of order, filtering, other tests' behaviour; the generators' states are restored after each test.", "quantifier": "all test lists, orders, amounts of randomness consumed", "why_tests_cant": "The statement is about every history of operations; tests only exercise a few short histories.", "anchors": ["src/cocotb/regression.py::RegressionManager._schedule_next_test", "src/cocotb/regression.py::RegressionManager._test_complete"]}
{"id": "C55", "title": "A test completes exactly once, after all its tasks are done", "statement": "The completion callback of a test is called exactly once, and only when every task of the test is done; after the main task ends, fails or times out all other tasks are cancelled.", "quantifier": "all schedules of tasks, failures, timeouts", "why_tests_cant": "The statement is about every interleaving of tasks, triggers and API calls; tests observe one schedule each.", "anchors": ["src/cocotb/_test_manager.py::TestManager._abort", "src/cocotb/_test_manager.py::TestManager._on_complete", "src/cocotb/_test_manager.py::TestManager.add_task", "src/cocotb/_test_manager.py::TestManager.remove_task"]}
{"id": "C56", "title": "A test's verdict contains exactly the unhandled failures", "statement": "exception() is None iff no unhandled failure occurred, the failure itself if exactly one occurred, and a group of all of them in order otherwise; a failing task awaited by another task does not fail the test directly; cancelled tasks do not.", "quantifier": "all schedules", "why_tests_cant": "The statement is about every interleaving of tasks, triggers and API calls; tests observe one schedule each.", "anchors": ["src/cocotb/_test_manager.py::TestManager.exception", "src/cocotb/_test_manager.py::TestManager._task_done_callback", "src/cocotb/_test_manager.py::TestManager._test_done_callback"]}
{"id": "C57", "title": "parametrize generates the full Cartesian product, each combination once", "statement": "A test with parametrize options generates exactly one test per element of the Cartesian product of all option values, each called with exactly that combination; the last decorator varies slowest as documented; count is the product of sizes.", "quantifier": "all option lists", "why_tests_cant": "Unbounded numbers of options and values.", "anchors": ["src/cocotb/_decorators.py::TestGenerator.generate_tests", "src/cocotb/_decorators.py::parametrize"]}
{"id": "C58", "title": "Generated test names are distinct", "statement": "Tests generated from one function by parametrize / TestFactory have pairwise distinct names whenever the value representations are distinct per option (TestFactory: always).", "quantifier": "all option lists", "why_tests_cant": "Unbounded.", "anchors": ["src/cocotb/_decorators.py::TestGenerator.generate_tests", "src/cocotb/_decorators.py::_reprs", "src/cocotb/_decorators.py::_repr", "src/cocotb/_test_factory.py::TestFactory.generate_tests"]}
{"id": "C59", "title": "TestFactory generates the full Cartesian product with unique increasing numbers", "statement": "TestFactory.generate_tests creates exactly one test per combination of option values, including tupled options, numbered 001.. in product order; inconsistent option tuples are rejected.", "quantifier": "all option lists", "why_tests_cant": "Unbounded.", "anchors": ["src/cocotb/_test_factory.py::TestFactory.add_option", "src/cocotb/_test_factory.py::TestFactory.generate_tests"]}
{"id": "C60", "title": "xUnit text escaping yields only characters legal in XML 1.0 and keeps legal ones", "statement": "Every text written to the report contains only characters allowed by XML 1.0; legal characters are unchanged; escaping is unambiguous per character.", "quantifier": "all Unicode strings", "why_tests_cant": "Over a million code points and unbounded strings.", "anchors": ["src/cocotb/_xunit_reporter.py::_INVALID_CHARS", "src/cocotb/_xunit_reporter.py::_escape", "src/cocotb/_xunit_reporter.py::_escape_code", "src/cocotb/_xunit_reporter.py::_normalize_text"]}
{"id": "C61", "title": "xUnit counters equal the test cases they contain", "statement": "After any sequence of add_testcase and write, in every testsuite of every file written the tests/failures/errors/skipped attributes equal the numbers of contained testcases with those results; the file contains exactly the test cases added before, once each, in their module's suite and in order, each with its verdict; get_results finds their number and the number of failures and errors.", "quantifier": "all sequences of added test cases", "why_tests_cant": "The statement is about every history of operations; tests only exercise a few short histories.", "anchors": ["src/cocotb/_xunit_reporter.py::XUnitReporter.add_testcase", "src/cocotb/_xunit_reporter.py::XUnitReporter._get_testsuite"]}
{"id": "C62", "title": "Combining result files keeps every test case and its verdict", "statement": "combine_results output contains each test case of the inputs exactly once under its suite; get_results on the combined file reports the sum of tests and failures of the inputs.", "quantifier": "all sets of result files", "why_tests_cant": "Unbounded.", "anchors": ["src/cocotb_tools/combine_results.py::main", "src/cocotb_tools/check_results.py::get_results"]}
{"id": "C63", "title": "Environment variables are parsed to the documented values", "statement": "get_bool accepts exactly the documented true/false spellings (any case, surrounding blanks), empty means default, and raises ValueError otherwise; get_list splits on commas and drops blanks; get_int parses integers; as_bool agrees with get_bool.", "quantifier": "all environment strings", "why_tests_cant": "Unbounded strings.", "anchors": ["src/cocotb_tools/_env.py::get_bool", "src/cocotb_tools/_env.py::as_bool", "src/cocotb_tools/_env.py::get_list", "src/cocotb_tools/_env.py::get_int", "src/cocotb_tools/_env.py::get_str"]}
{"id": "C64", "title": "bridge/resume hand-off: at most one of simulation and external thread runs", "statement": "At any time either the event-loop thread or exactly one external (bridge) thread runs user code; a resume function runs in the event loop while its thread is blocked and its result or exception is delivered to that thread exactly once.", "quantifier": "all interleavings of threads and callbacks", "why_tests_cant": "The statement is about every interleaving of tasks, triggers and API calls; tests observe one schedule each.", "anchors": ["src/cocotb/_bridge.py::external_waiter", "src/cocotb/_bridge.py::_queue_function", "src/cocotb/_bridge.py::run_bridge_threads", "src/cocotb/_bridge.py::run_in_executor"]}
{"id": "C65", "title": "Every finished bridge thread wakes its awaiting task", "statement": "When a bridged function returns or raises, the task awaiting it receives that result or exception exactly once, and the event loop does not go idle while a bridge thread is able to run.", "quantifier": "all numbers of threads and schedules", "why_tests_cant": "The statement is about every interleaving of tasks, triggers and API calls; tests observe one schedule each.", "anchors": ["src/cocotb/_bridge.py::run_bridge_threads", "src/cocotb/_bridge.py::external_waiter"]}
{"id": "C66", "title": "Shutdown callbacks run once each in registration order", "statement": "Every function registered for shutdown is called exactly once, in registration order, including ones registered by shutdown functions themselves.", "quantifier": "all registration histories", "why_tests_cant": "The statement is about every history of operations; tests only exercise a few short histories.", "anchors": ["src/cocotb/_shutdown.py::register", "src/cocotb/_shutdown.py::_shutdown"]}
{"id": "C67", "title": "with_timeout: result or timeout, never both", "statement": "with_timeout returns the awaited result iff it completes before the timer fires, otherwise cancels it and raises SimTimeoutError; the timer is removed when the result wins.", "quantifier": "all schedules, all times", "why_tests_cant": "The statement is about every interleaving of tasks, triggers and API calls; tests observe one schedule each.", "anchors": ["src/cocotb/_extended_awaitables.py::with_timeout"]}
{"id": "C68", "title": "Combine and First", "statement": "await Combine(*ts) returns after all triggers fired whatever the order, await First(*ts) after the first and returns that one's result; nested uses compose.", "quantifier": "all sets and firing orders", "why_tests_cant": "The statement is about every interleaving of tasks, triggers and API calls; tests observe one schedule each.", "anchors": ["src/cocotb/_extended_awaitables.py::Combine", "src/cocotb/_extended_awaitables.py::First"]}
{"id": "C69", "title": "Simulation time is reported exactly", "statement": "get_sim_time('step') equals high*2**32+low of the simulator's counter, and in other units is the exact scaling by powers of ten.", "quantifier": "all 64-bit times, all precisions and units", "why_tests_cant": "The integers (bounds, widths, indexes) are unbounded, so no finite set of examples covers them; boundary conditions (null ranges, direction, sign) interact.", "anchors": ["src/cocotb/simtime.py::get_sim_time"]}
{"id": "C70", "title": "Handle lookup is stable", "statement": "Looking up the same sub-object of a hierarchy any number of times, in any order relative to full discovery, returns the same object; names not present raise, and iteration visits each discovered child once.", "quantifier": "all lookup histories and design hierarchies", "why_tests_cant": "The statement is about every history of operations; tests only exercise a few short histories.", "anchors": ["src/cocotb/handle.py::HierarchyObjectBase._get", "src/cocotb/handle.py::HierarchyObjectBase._discover_all", "src/cocotb/handle.py::_make_sim_object"]}
{"id": "C71", "title": "Plusargs are parsed exactly", "statement": "Every command-line argument starting with '+' appears in cocotb.plusargs under its name up to the first '=', with the rest as value or True when there is none; the last occurrence wins; nothing else appears.", "quantifier": "all argument lists", "why_tests_cant": "Unbounded.", "anchors": ["src/cocotb/_init.py::_process_plusargs"]}
{"id": "C72", "title": "The index-change warning never changes the result of an access", "statement": "Enabling COCOTB_INDEXING_CHANGED_WARNING only emits warnings: for every array value read from a handle and every index, array[i] gives the same element or exception as with the setting off.", "quantifier": "all array values, ranges (any bounds and direction) and indices", "why_tests_cant": "All ranges with arbitrary bounds crossed with all indices.", "anchors": ["src/cocotb/types/_array.py::Array.__getitem__", "src/cocotb/types/_logic_array.py::LogicArray.__getitem__", "src/cocotb/types/_indexing.py::indexing_changed"]}
{"id": "C73", "title": "Conversion to simulator steps yields a whole number of steps", "statement": "convert(t, unit, to='step', round_mode) returns an integer number of simulator steps (rounded as round_mode says) or raises ValueError, for every unit including 'step'.", "quantifier": "all rational times, units, precisions, rounding modes", "why_tests_cant": "Rationals are unbounded and one unit takes a different path.", "anchors": ["src/cocotb/simtime.py::convert"]}
{"id": "C74", "title": "current_task() is the task whose code executes", "statement": "Whenever the code of a task executes, current_task() returns that task; between the steps of tasks there is no current task.", "quantifier": "all schedules of all tasks, including nested completions, kills and cancellations", "why_tests_cant": "Every interleaving of task steps, done callbacks, kills and cancellations has to restore the value; tests look at single schedules.", "anchors": ["src/cocotb/task.py::current_task", "src/cocotb/task.py::Task._resume"]}
{"id": "C75", "title": "Strings and logic values assigned to signals drive exactly the elements they denote", "statement": "Assigning a str (underscores ignored, letters in either case), a LogicArray or a Logic to a logic or logic-array object succeeds iff every character denotes a logic value and the number of elements equals the object's width, and then drives exactly those elements; otherwise ValueError and nothing is driven. Writing back a value that was read drives the same elements.", "quantifier": "all strings, all logic arrays, all widths", "why_tests_cant": "Strings and widths are unbounded, and separators, case and length checks interact.", "anchors": ["src/cocotb/handle.py::LogicArrayObject._set_value", "src/cocotb/handle.py::LogicObject._set_value"]}
{"id": "C76", "title": "Generate-loop blocks are reachable by index and visited in order", "statement": "In a generate loop the block the simulator names name[i], name(i) or name__i is the child at index i; iterating over the loop visits every block exactly once in ascending order of index, and len is their number.", "quantifier": "all loop names, indexes, naming styles and lookup histories", "why_tests_cant": "Index sets, name spellings and the interleaving of lookups with discovery are unbounded.", "anchors": ["src/cocotb/handle.py::HierarchyArrayObject._sub_handle_key", "src/cocotb/handle.py::HierarchyArrayObject.__iter__"]}
{"id": "C77", "title": "Test decorators add up independently of their order", "statement": "A function decorated with several of test, parametrize, skipif and xfail is skipped iff one of them asks for it, expected to fail iff one of them asks for it, and expected to raise exactly the union of the exception types they name; timeout, stage and name are those of the topmost decorator giving one; permuting the decorators does not change what is skipped or expected.", "quantifier": "all stacks of decorators with all arguments", "why_tests_cant": "Stacks of decorators are unbounded and each combination of settings and orders must accumulate correctly.", "anchors": ["src/cocotb/_decorators.py::test", "src/cocotb/_decorators.py::skipif", "src/cocotb/_decorators.py::xfail", "src/cocotb/_decorators.py::parametrize"]}
{"id": "C78", "title": "Where the random seed comes from", "statement": "cocotb.RANDOM_SEED is the integer in COCOTB_RANDOM_SEED if that is set, else in RANDOM_SEED if that is set (a blank value of either means the time), else the value of the last +ntb_random_seed argument, else of the last +seed argument, else the time.", "quantifier": "all environments, argument lists and times", "why_tests_cant": "Unbounded combinations of variables and arguments.", "anchors": ["src/cocotb/_init.py::_setup_random_seed", "src/cocotb_tools/_env.py::get_int"]}
{"id": "C79", "title": "The top-level object is the one asked for", "statement": "COCOTB_TOPLEVEL, without blanks around it and without a library name before the first dot, selects cocotb.top among the simulator's top-level objects: the object of exactly that name if there is one, else one whose name differs only in case; if the simulator lists none, the object it finds under that name; if it finds none, RuntimeError. cocotb.top is in cocotb.tops, which has an entry for every listed object's name.", "quantifier": "all values of COCOTB_TOPLEVEL and all lists of top-level objects", "why_tests_cant": "Unbounded names and lists.", "anchors": ["src/cocotb/_init.py::_setup_root_handle"]}
{"id": "C80", "title": "Preview features are enabled exactly as named", "statement": "COCOTB_PREVIEW unset or empty enables no preview feature; a documented true/false word enables all or none, blanks around it not mattering; any other value is a comma-separated list and enables exactly the features named; an unknown name raises ValueError.", "quantifier": "all values of COCOTB_PREVIEW, all sets of features", "why_tests_cant": "Unbounded strings.", "anchors": ["src/cocotb/preview.py::_init", "src/cocotb/preview.py::_parse_features", "src/cocotb_tools/_env.py::as_bool"]}
{"id": "C81", "title": "Entry points run in order, all or none if malformed", "statement": "The entry points in PYGPI_USERS (the built-in ones if it is unset or blank) are called in the order given; if one is not of the form module:function none is called; if one fails no later one is called.", "quantifier": "all lists of entry points and all sets of failing ones", "why_tests_cant": "Unbounded lists.", "anchors": ["src/pygpi/entry.py::load_entry"]}
{"id": "C82", "title": "Tasks that are ready run in order", "statement": "A task that is ready to run (started, or woken by its trigger) while another one is still waiting, or not yet started with start_soon, runs before the other one; tasks woken by the same firing of a trigger run in the order in which they started to wait for it. What else happens in between does not matter, as long as neither of the two is killed or cancelled on the spot.", "quantifier": "all programs, all histories, all pairs of tasks", "why_tests_cant": "The statement is about every interleaving; tests observe one schedule each.", "anchors": ["src/cocotb/_event_loop.py::EventLoop", "src/cocotb/task.py::Task._schedule_resume", "src/cocotb/_base_triggers.py::Trigger._do_callbacks"]}
{"id": "C83", "title": "A simulator callback is called at most once and never after it was removed", "statement": "For a trigger armed with the simulator: the function is called only after the simulator reported the event, at most once, and not if the trigger was disarmed; a one-shot event that the simulator reported is acted on, unless it was disarmed, before control goes back to the simulator; a callback is not used after it was freed.", "quantifier": "all orders of arming, disarming and simulator events, including events reported in the middle of another callback, all builds (with and without queue of callbacks, with and without recurring one-shot callbacks), all answers of the simulator to removal requests", "why_tests_cant": "The order of events, nesting and failures of removal are up to the simulator.", "anchors": ["src/cocotb/share/lib/gpi/vpi/VpiCbHdl.cpp::handle_vpi_callback", "src/cocotb/share/lib/gpi/vpi/VpiCbHdl.cpp::VpiCbHdl::remove", "src/cocotb/share/lib/gpi/vpi/VpiCbHdl.cpp::VpiCbHdl::run", "src/cocotb/share/lib/gpi/vhpi/VhpiCbHdl.cpp", "src/cocotb/share/lib/pygpi/bind.cpp::handle_gpi_callback", "src/cocotb/share/lib/pygpi/bind.cpp::deregister"]}
{"id": "C84", "title": "Every edge the simulator reports is seen", "statement": "When the simulator reports that a signal changed to the value an armed RisingEdge, FallingEdge or ValueChange waits for, the trigger fires before control goes back to the simulator, unless it was disarmed; and it fires only for such a change.", "quantifier": "all orders of arming, disarming and value changes, including changes made without delay in the middle of another callback, all builds", "why_tests_cant": "The interleaving of value changes and callbacks is up to the simulator.", "anchors": ["src/cocotb/share/lib/gpi/vpi/VpiCbHdl.cpp::VpiValueCbHdl::run", "src/cocotb/share/lib/gpi/vpi/VpiCbHdl.cpp::handle_vpi_callback"]}
{"id": "C85", "title": "A run reported as passed did pass", "statement": "test() of the runner, called under pytest, returns only if the simulator could be started, ended with code 0, and wrote a results file of this run without failed tests; what an earlier run left in the file does not matter. A run that is not reported as passed does not end the process with code 0, and a simulator that fails after leaving results ends it with its own code.", "quantifier": "all exit codes, all contents of the results file before and after, all positions at which a command fails", "why_tests_cant": "Outcomes of the simulator process and left-over files are arbitrary.", "anchors": ["src/cocotb_tools/runner.py::Runner.test", "src/cocotb_tools/runner.py::Runner._execute_cmds", "src/cocotb_tools/check_results.py::get_results"]}
{"id": "C86", "title": "Settings given to the runner reach the simulator", "statement": "Test modules, top level, language, results file, seed, test filter and extra_env given to test() are in the environment of the simulator with the given values; settings of earlier calls are not.", "quantifier": "all environments of the runner's process, all arguments, all earlier calls", "why_tests_cant": "Environments are arbitrary maps.", "anchors": ["src/cocotb_tools/runner.py::Runner.test", "src/cocotb_tools/runner.py::Runner._set_env_test", "src/cocotb_tools/runner.py::Runner._set_env_common"]}
{"id": "C87", "title": "testcase selects the tests of the given names", "statement": "With testcase=names, exactly the tests with one of the names are run: the regular expression made from the names, read from the environment by the regression manager and searched for in full names, matches those tests only. Special characters in names have no meaning.", "quantifier": "all lists of names, all full names of tests, names with arbitrary characters", "why_tests_cant": "The statement is about every text; the composition of escaping, environment and matching spans two processes.", "anchors": ["src/cocotb_tools/runner.py::Runner.test", "src/cocotb/regression.py::RegressionManager", "src/cocotb/regression.py::_setup_regression_manager"]}
{"id": "C88", "title": "Values given to the runner are written as literals with that value", "statement": "as_sv_literal, as_vhdl_literal and the quoting of values in Tcl scripts produce text that the language reads back as the given value; values with no such text are refused.", "quantifier": "all values: Booleans, integers, logic arrays, strings with arbitrary characters", "why_tests_cant": "Texts and integers are unbounded.", "anchors": ["src/cocotb_tools/runner.py::as_sv_literal", "src/cocotb_tools/runner.py::as_vhdl_literal", "src/cocotb_tools/runner.py::_as_tcl_value", "src/cocotb_tools/runner.py::_as_sv_literal"]}
{"id": "C89", "title": "Sources are compiled in order, each with the arguments for its language", "statement": "build() compiles every given source once, in the documented order (sources, vhdl_sources, verilog_sources), passes build arguments tagged with a language to that language's compiler only, refuses sources and arguments the simulator does not support, and infers the language of the top level from the last source.", "quantifier": "all lists of sources and arguments, tagged or not, all ten runners", "why_tests_cant": "Lists are unbounded and there are ten implementations.", "anchors": ["src/cocotb_tools/runner.py::Runner.build", "src/cocotb_tools/runner.py::Runner._build_command", "src/cocotb_tools/runner.py::Runner._check_hdl_toplevel_lang"]}
{"id": "C90", "title": "A build leaves the product of the current sources and arguments", "statement": "After build() returned, the product in the build directory is the one a build in an empty directory would have made, though compilers are not run when the product is newer than every source; always=True guarantees it regardless of times.", "quantifier": "all histories of edits and builds, all times between them", "why_tests_cant": "Histories and clocks are arbitrary.", "anchors": ["src/cocotb_tools/runner.py::outdated", "src/cocotb_tools/runner.py::Runner._build_command"]}
{"id": "C91", "title": "One simulator object has one handle", "statement": "Handles obtained for one design object, as top level, by name, by index or by iteration, compare equal and handles of different objects do not; a handle stays valid and keeps standing for the same object until the simulation ends.", "quantifier": "all histories of lookups and iterations, all sets of simulator interfaces", "why_tests_cant": "Histories are unbounded and mix all kinds of lookup.", "anchors": ["src/cocotb/share/lib/gpi/GpiCommon.cpp::check_and_store", "src/cocotb/share/lib/gpi/GpiCommon.cpp::gpi_get_handle_by_name", "src/cocotb/share/lib/gpi/GpiCommon.cpp::gpi_next"]}
{"id": "C92", "title": "A lookup does not depend on earlier lookups", "statement": "The type, bounds, name and identity of the object found under a name or index are the same whatever was looked up or iterated over before.", "quantifier": "all histories of lookups and iterations, all designs", "why_tests_cant": "The order in which a testbench touches objects is arbitrary.", "anchors": ["src/cocotb/share/lib/gpi/GpiCommon.cpp::check_and_store", "src/cocotb/share/lib/gpi/vpi/VpiImpl.cpp::get_child_by_name", "src/cocotb/share/lib/gpi/vpi/VpiImpl.cpp::get_child_by_index"]}
{"id": "C93", "title": "Objects that do not exist are not found", "statement": "A lookup by name succeeds only for a name the object has, a lookup by index only for an index within the bounds or an element of the generate block; an index beyond 32 bits raises OverflowError.", "quantifier": "all designs, objects, names and indices", "why_tests_cant": "Names and indices are unbounded.", "anchors": ["src/cocotb/share/lib/gpi/vpi/VpiImpl.cpp::get_child_by_name", "src/cocotb/share/lib/gpi/vpi/VpiImpl.cpp::get_child_by_index", "src/cocotb/share/lib/pygpi/bind.cpp::get_handle_by_index"]}
{"id": "C94", "title": "Iteration lists what lookups find", "statement": "Every object listed when iterating over an object is the object a lookup of its name or index gives, and iterating over a generate block gives exactly its elements.", "quantifier": "all designs of a simulator with regular names", "why_tests_cant": "Designs are unbounded; the two paths through the code are separate.", "anchors": ["src/cocotb/share/lib/gpi/vpi/VpiIterator.cpp::VpiIterator", "src/cocotb/share/lib/gpi/vpi/VpiIterator.cpp::next_handle", "src/cocotb/share/lib/gpi/vpi/VpiImpl.cpp::create_gpi_obj_from_handle"]}
{"id": "C95", "title": "Mixed-language lookups prefer the parent's interface", "statement": "With several simulator interfaces a name is looked up in the interface of the parent first, then in the others in the order of registration, and fails only if none knows it; iterations skip exactly the objects no interface can represent.", "quantifier": "all lists of interfaces, parents, names and iterations", "why_tests_cant": "Interfaces and their answers are arbitrary.", "anchors": ["src/cocotb/share/lib/gpi/GpiCommon.cpp::gpi_get_child_by_name", "src/cocotb/share/lib/gpi/GpiCommon.cpp::gpi_get_child_from_handle", "src/cocotb/share/lib/gpi/GpiCommon.cpp::gpi_next"]}
{"id": "C96", "title": "Types and bounds of signals and arrays", "statement": "A net or variable is a logic array exactly if it has a range or more than one bit; arrays and vectors report the bounds and direction they were declared with and one element for each index.", "quantifier": "all simulator objects", "why_tests_cant": "Bounds are arbitrary integers.", "anchors": ["src/cocotb/share/lib/gpi/vpi/VpiImpl.cpp::to_gpi_objtype", "src/cocotb/share/lib/gpi/vpi/VpiObj.cpp::VpiArrayObjHdl::initialise", "src/cocotb/share/lib/gpi/vpi/VpiSignal.cpp::VpiSignalObjHdl::initialise"]}
{"id": "C97", "title": "Lookups and iterations never crash the simulator", "statement": "Looking up or iterating with a valid handle has a defined result: it gives an object, nothing, or a Python exception.", "quantifier": "all histories of calls, all designs", "why_tests_cant": "A crash depends on the design and the history.", "anchors": ["src/cocotb/share/lib/gpi/vpi/VpiIterator.cpp::VpiIterator", "src/cocotb/share/lib/gpi/vpi/VpiIterator.cpp::VpiPackageIterator", "src/cocotb/share/lib/gpi/GpiCommon.cpp::gpi_next"]}
{"id": "C98", "title": "pytest sessions report every test completely and in order", "statement": "In a session of the pytest plugin every collected test is announced, reports its setup, reports its call exactly if the setup passed, reports its teardown and is announced as finished, one test after another in the order of collection, and then the session ends. Whatever raises and whenever the simulation ends, what was reported is a beginning of that.", "quantifier": "all lists of tests with plain and asynchronous fixtures, all outcomes, all hooks that raise, all points at which the simulation ends", "why_tests_cant": "The protocol is split over callbacks; every interleaving of outcomes and exceptions matters.", "anchors": ["src/cocotb_tools/_pytest/_regression.py::RegressionManager.pytest_runtestloop", "src/cocotb_tools/_pytest/_regression.py::RegressionManager.pytest_runtest_protocol", "src/cocotb_tools/_pytest/_regression.py::RegressionManager._setup", "src/cocotb_tools/_pytest/_regression.py::RegressionManager._call_completed", "src/cocotb_tools/_pytest/_regression.py::RegressionManager._teardown", "src/cocotb_tools/_pytest/_regression.py::RegressionManager._completed"]}
{"id": "C99", "title": "Failing code makes the test fail under pytest", "statement": "If a fixture's setup, the test function or a fixture's teardown fails, then a phase of that test is reported as failed.", "quantifier": "all sessions, all combinations of fixtures and outcomes", "why_tests_cant": "Depends on the combination of fixtures that are torn down together.", "anchors": ["src/cocotb_tools/_pytest/_regression.py::RegressionManager._setup", "src/cocotb_tools/_pytest/_regression.py::RegressionManager._call_completed", "src/cocotb_tools/_pytest/_regression.py::RegressionManager._teardown", "src/cocotb_tools/_pytest/_regression.py::RegressionManager._completed"]}
{"id": "C100", "title": "Teardown code of fixtures runs exactly once", "statement": "When a session of the pytest plugin is over, the code after the yield of every fixture that was set up has run exactly once, and that of no other fixture.", "quantifier": "all sessions, all scopes, all outcomes of setups, tests and teardowns, all states of tasks started by fixtures", "why_tests_cant": "The number of scopes and failures is unbounded.", "anchors": ["src/cocotb_tools/_pytest/_regression.py::RegressionManager.pytest_fixture_setup", "src/cocotb_tools/_pytest/_regression.py::RegressionManager._add_teardown", "src/cocotb_tools/_pytest/_regression.py::RegressionManager._teardown"]}
{"id": "C101", "title": "Fixtures are set up and torn down in pytest's order", "statement": "Fixtures of a test are set up in the order in which pytest requests them up to the first failure, and torn down in the reverse order.", "quantifier": "all sessions, all lists of fixtures", "why_tests_cant": "Any mixture of plain and asynchronous fixtures may occur.", "anchors": ["src/cocotb_tools/_pytest/_regression.py::RegressionManager.pytest_fixture_setup", "src/cocotb_tools/_pytest/_regression.py::RegressionManager._setup", "src/cocotb_tools/_pytest/_regression.py::RegressionManager._teardown"]}
{"id": "C102", "title": "A pytest session ends once and stops the simulator", "statement": "The session is finished once, with a status without error only if all tests were run and reported, and then the simulator is stopped, whatever raised before; if the simulation ends early the session is still finished.", "quantifier": "all sessions, all hooks that raise, all points at which the simulation ends", "why_tests_cant": "Every hook may raise at every point.", "anchors": ["src/cocotb_tools/_pytest/_regression.py::RegressionManager._finish", "src/cocotb_tools/_pytest/_regression.py::RegressionManager._on_sim_end", "src/cocotb_tools/_pytest/_regression.py::finish_on_exception"]}
{"id": "C103", "title": "Random numbers of a pytest test depend on seed and test only", "statement": "The random numbers the setup, call and teardown of a test see depend on the seed and the test's node id, not on which other tests run before it or what they draw.", "quantifier": "all pairs of sessions that contain the test", "why_tests_cant": "Ranges over all selections and orders of tests.", "anchors": ["src/cocotb_tools/_pytest/_regression.py::RegressionManager.pytest_runtest_setup", "src/cocotb_tools/_pytest/_regression.py::RegressionManager.pytest_runtest_teardown"]}
{"id": "C104", "title": "Identifiers of tests run through pytest are unique", "statement": "The node ids reported for cocotb tests that run below different runner tests, or for different cocotb tests below one runner, are different.", "quantifier": "all runners and tests, in all directories, modules and classes, with all parameters", "why_tests_cant": "Ranges over all pairs of paths and names.", "anchors": ["src/cocotb_tools/_pytest/_controller.py::Controller._get_mangled_nodeid"]}
{"id": "C105", "title": "The result file names each test as the user does", "statement": "In the JUnit results of a simulation the name of a test case is the name of the test function with its parameters, and class name and name together identify the test.", "quantifier": "all runners and tests, in all directories, modules and classes, with all parameters", "why_tests_cant": "Ranges over all paths, names and parameters.", "anchors": ["src/cocotb_tools/_pytest/_junitxml.py"]}
{"id": "C106", "title": "Colours do not change what is logged", "statement": "With stripping of escape codes no code is in what is logged and nothing else is removed; with colours a terminal shows the same text as without.", "quantifier": "all messages, levels, prefixes and exceptions", "why_tests_cant": "Ranges over all texts and all codes in them.", "anchors": ["src/cocotb/logging.py::SimLogFormatter.format", "src/cocotb/logging.py::SimLogFormatter.strip_ansi", "src/cocotb/_ansi.py::ANSI"]}
{"id": "C107", "title": "Messages of several lines are logged line by line", "statement": "All lines of a message and of its exception are logged in order, the first after the prefix and the others after the indentation; with the default prefix all begin in the same column.", "quantifier": "all messages, exceptions, prefixes and indentations", "why_tests_cant": "Ranges over all texts.", "anchors": ["src/cocotb/logging.py::SimLogFormatter.format", "src/cocotb/logging.py::SimLogFormatter.formatExcInfo", "src/cocotb/logging.py::default_config"]}
{"id": "C108", "title": "Columns of the log prefix have the width asked for", "statement": "ljust(s, c) and rjust(s, c) in a log prefix give c characters: s completed with blanks, or the end of s after two dots.", "quantifier": "all texts and widths", "why_tests_cant": "Ranges over all texts and widths.", "anchors": ["src/cocotb/logging.py::_ljust", "src/cocotb/logging.py::_rjust"]}
{"id": "C109", "title": "Messages of the GPI obey the levels of their loggers", "statement": "Once logging is set up, a message of the GPI is logged exactly if Python's logging is to log messages of that level for its logger.", "quantifier": "all histories of changes of levels, all loggers, all levels", "why_tests_cant": "The C++ code keeps a copy of one level; every history of changes matters.", "anchors": ["src/cocotb/logging.py::_setup_gpi_logger", "src/cocotb/logging.py::_log_from_c", "src/cocotb/share/lib/pygpi/logging.cpp::pygpi_log_handler", "src/cocotb/share/lib/pygpi/logging.cpp::pygpi_logging_set_level"]}
{"id": "C110", "title": "Messages of the GPI are logged whole", "statement": "The text of a message of the GPI is shown whole and unchanged, whatever its length, its characters and the messages before.", "quantifier": "all sequences of messages", "why_tests_cant": "One buffer is used for all messages.", "anchors": ["src/cocotb/share/lib/pygpi/logging.cpp::pygpi_log_handler", "src/cocotb/share/lib/pygpi/logging.cpp::fallback_handler", "src/cocotb/share/lib/gpi/logging.cpp::gpi_native_logger_vlog"]}
{"id": "C111", "title": "When colours are used", "statement": "COCOTB_ANSI_OUTPUT decides whether colours are used; if it is not set they are used for terminals, unless NO_COLOR is set to something or a graphical interface is used.", "quantifier": "all environments", "why_tests_cant": "Ranges over all values of the variables.", "anchors": ["src/cocotb/logging.py::_init"]}
{"id": "C112", "title": "The simulator is told to finish once, for a reason", "statement": "Whatever happens, the simulator is told to finish at most once, and only after the simulation ended, user code failed or asked for it; if that happened, it has been told so when control is back in the simulator, and a request of user code is passed on at once.", "quantifier": "all sets of user libraries, all histories of simulator callbacks, errors and requests, also callbacks within user code", "why_tests_cant": "Quantifies over all histories, including nested callbacks.", "anchors": ["src/cocotb/share/lib/gpi/GpiCommon.cpp::gpi_finish", "src/cocotb/share/lib/gpi/GpiCommon.cpp::gpi_end_of_sim_time", "src/cocotb/share/lib/pygpi/bind.cpp::stop_simulator"]}
{"id": "C113", "title": "Clean-up at the end of a simulation", "statement": "Object handles are deleted and finalize functions are called only after the simulator was told to finish, all of them and the last registered first, before control is back in the simulator, and once.", "quantifier": "all sets of user libraries, all histories", "why_tests_cant": "Quantifies over all histories.", "anchors": ["src/cocotb/share/lib/gpi/GpiCommon.cpp::gpi_finalize", "src/cocotb/share/lib/gpi/GpiCommon.cpp::gpi_check_cleanup"]}
{"id": "C114", "title": "No user code during or after clean-up", "statement": "When the finalize functions are called (Python is shut down) no user code is running, and no user code is called later.", "quantifier": "all histories, with and without a queue of callbacks", "why_tests_cant": "Depends on when the simulator calls back; only some simulators do so in the middle of user code or after they were told to finish.", "anchors": ["src/cocotb/share/lib/gpi/gpi_priv.hpp::GPI_TO_SIM", "src/cocotb/share/lib/gpi/vpi/VpiCbHdl.cpp::handle_vpi_callback", "src/cocotb/share/lib/gpi/vhpi/VhpiCbHdl.cpp::handle_vhpi_callback"]}
{"id": "C115", "title": "Start and end functions of all users are called", "statement": "At the start of the simulation the start functions of all users are called in the order of registration, even if some fail; when it ends the end functions of all users are called once in that order, before the simulator is told to finish.", "quantifier": "all sets of user libraries, all histories of errors", "why_tests_cant": "Quantifies over all histories of errors.", "anchors": ["src/cocotb/share/lib/gpi/GpiCommon.cpp::gpi_start_of_sim_time", "src/cocotb/share/lib/gpi/GpiCommon.cpp::gpi_end_of_sim_time"]}
{"id": "C116", "title": "GPI_USERS names the libraries to load", "statement": "The libraries of GPI_USERS are loaded and their functions called in the order written; at the first that fails loading ends, and the simulator is told to finish.", "quantifier": "all lists of libraries and functions, all outcomes of loading, all texts", "why_tests_cant": "Ranges over all texts.", "anchors": ["src/cocotb/share/lib/gpi/GpiCommon.cpp::gpi_load_users"]}
{"id": "C117", "title": "GPI_EXTRA names further interfaces", "statement": "The libraries of GPI_EXTRA are loaded and their functions called in the order written, before user libraries; the program exits at the first that fails. Interfaces registered have different names, and the one registered first stays the first.", "quantifier": "all lists of libraries and functions, all outcomes of loading; all sequences of registrations", "why_tests_cant": "Ranges over all texts and sequences.", "anchors": ["src/cocotb/share/lib/gpi/GpiCommon.cpp::gpi_entry_point", "src/cocotb/share/lib/gpi/GpiCommon.cpp::gpi_load_libs", "src/cocotb/share/lib/gpi/GpiCommon.cpp::gpi_register_impl"]}
{"id": "C118", "title": "Callbacks are handled in the order of arrival", "statement": "Callbacks of the simulator are handled in the order in which they arrive, each once and none is lost, and no user function is called while another is running.", "quantifier": "all histories of simulator callbacks, also callbacks within user code, errors and requests to finish", "why_tests_cant": "Quantifies over all interleavings of callbacks with user code.", "anchors": ["src/cocotb/share/lib/gpi/vpi/VpiCbHdl.cpp::handle_vpi_callback", "src/cocotb/share/lib/gpi/vhpi/VhpiCbHdl.cpp::handle_vhpi_callback", "src/cocotb/share/lib/gpi/fli/FliCbHdl.cpp::handle_fli_callback"]}
{"id": "C119", "title": "Logic values arrive in the simulator", "statement": "A value assigned to a logic object that means something (an int that fits, a string, a Logic, a LogicArray of the right length) ends in one call of the simulator that stores exactly these elements, in order, in the simulator's own code, whether it is deposited or forced; reading gives the same elements. Any other value is refused.", "quantifier": "all Python values, widths, interfaces (VPI, VHPI, FLI), signals and variables, actions, contents of buffers", "why_tests_cant": "Ranges over all values and widths; the code of each interface runs only with a simulator that has it.", "anchors": ["src/cocotb/share/lib/gpi/vhpi/VhpiSignal.cpp::VhpiLogicSignalObjHdl::set_signal_value", "src/cocotb/share/lib/gpi/vhpi/VhpiSignal.cpp::chr2vhpi", "src/cocotb/share/lib/gpi/fli/FliObjHdl.cpp::FliLogicObjHdl", "src/cocotb/share/lib/gpi/vpi/VpiSignal.cpp::VpiSignalObjHdl::set_signal_value", "src/cocotb/handle.py::LogicArrayObject._set_value", "src/cocotb/handle.py::LogicObject._set_value"]}
{"id": "C120", "title": "Numbers and enumerations arrive in the simulator", "statement": "An int assigned to an integer, character or enumeration object is stored as this number or as the literal at this position, also when forced, and reading gives the same int; only positions of literals are handed to the simulator.", "quantifier": "all ints, types and interfaces, signals and variables", "why_tests_cant": "Ranges over all ints and enumerations.", "anchors": ["src/cocotb/share/lib/gpi/vhpi/VhpiSignal.cpp::VhpiSignalObjHdl::set_signal_value", "src/cocotb/share/lib/gpi/vhpi/VhpiSignal.cpp::VhpiSignalObjHdl::initialise", "src/cocotb/share/lib/gpi/fli/FliObjHdl.cpp::FliEnumObjHdl", "src/cocotb/share/lib/gpi/fli/FliObjHdl.cpp::FliIntObjHdl", "src/cocotb/handle.py::EnumObject", "src/cocotb/handle.py::IntegerObject"]}
{"id": "C121", "title": "Strings arrive in the simulator", "statement": "Bytes assigned to a VHDL string of n characters become its first characters, the others become NUL, and reading gives the bytes assigned; more than n bytes are refused.", "quantifier": "all byte strings without NUL, all n, VHPI and FLI", "why_tests_cant": "Ranges over all strings and lengths.", "anchors": ["src/cocotb/share/lib/gpi/vhpi/VhpiSignal.cpp::VhpiSignalObjHdl::set_signal_value_str", "src/cocotb/share/lib/gpi/fli/FliObjHdl.cpp::FliStringObjHdl", "src/cocotb/handle.py::FixedStringObject"]}
{"id": "C122", "title": "Accepted assignments are not dropped", "statement": "An assignment either raises an exception or calls the simulator, with the mode that belongs to its action (deposit, immediate, force, release).", "quantifier": "all objects, values and actions, VPI, VHPI and FLI", "why_tests_cant": "Ranges over all combinations of object, value and action.", "anchors": ["src/cocotb/share/lib/gpi/vhpi/VhpiSignal.cpp::map_put_value_mode", "src/cocotb/share/lib/gpi/fli/FliObjHdl.cpp", "src/cocotb/share/lib/gpi/vpi/VpiSignal.cpp::VpiSignalObjHdl::set_signal_value", "src/cocotb/share/lib/gpi/GpiCommon.cpp::gpi_set_signal_value_int"]}
{"id": "C123", "title": "Elements of VHDL arrays", "statement": "Indexing an object of a VHDL array type with the indices of an element, one bracket per dimension, gives this element, with its name; the range of each dimension is the declared one; an index outside the range gives nothing.", "quantifier": "all arrays with any number of dimensions, directions and bounds; VHPI and FLI", "why_tests_cant": "Ranges over all array types; the code runs only with the simulators that have VHPI or FLI.", "anchors": ["src/cocotb/share/lib/gpi/vhpi/VhpiImpl.cpp::VhpiImpl::get_child_by_index", "src/cocotb/share/lib/gpi/vhpi/VhpiObj.cpp::VhpiArrayObjHdl::initialise", "src/cocotb/share/lib/gpi/fli/FliImpl.cpp::FliImpl::get_child_by_index", "src/cocotb/share/lib/gpi/fli/FliObjHdl.cpp::FliValueObjHdl::get_sub_hdl"]}
{"id": "C124", "title": "Classes of VHDL types", "statement": "Objects of the types bit and std_ulogic become logic objects (arrays of them logic arrays), objects of type boolean or character integers (arrays of characters strings), and objects of any other enumeration type enumerations.", "quantifier": "all enumeration types, objects and arrays of one dimension; VHPI and FLI", "why_tests_cant": "Ranges over all enumeration types a design can declare.", "anchors": ["src/cocotb/share/lib/gpi/vhpi/VhpiImpl.cpp::is_enum_logic", "src/cocotb/share/lib/gpi/vhpi/VhpiImpl.cpp::is_enum_char", "src/cocotb/share/lib/gpi/vhpi/VhpiImpl.cpp::is_enum_boolean", "src/cocotb/share/lib/gpi/vhpi/VhpiImpl.cpp::VhpiImpl::create_gpi_obj_from_handle", "src/cocotb/share/lib/gpi/fli/FliImpl.cpp::FliImpl::isValueLogic", "src/cocotb/share/lib/gpi/fli/FliImpl.cpp::FliImpl::create_gpi_obj_from_handle"]}
{"id": "C125", "title": "Names in VHDL designs", "statement": "Looking up a name gives an object with that name exactly if there is one, whatever the case of its letters; a generate loop is an array of its blocks, which can be indexed by their values and iterated over; what iteration lists is what lookup gives.", "quantifier": "all designs, names, regions, records and generate loops; VHPI with all simulators, FLI", "why_tests_cant": "Ranges over all designs and names.", "anchors": ["src/cocotb/share/lib/gpi/vhpi/VhpiImpl.cpp::VhpiImpl::get_child_by_name", "src/cocotb/share/lib/gpi/vhpi/VhpiImpl.cpp::VhpiImpl::compare_generate_labels", "src/cocotb/share/lib/gpi/vhpi/VhpiIterator.cpp::VhpiIterator::next_handle", "src/cocotb/share/lib/gpi/fli/FliImpl.cpp::FliImpl::get_child_by_name"]}
{"id": "C126", "title": "Constants are not assigned", "statement": "handle.is_const is true exactly for constants and generics and for their parts, and no value is ever written to such an object, whatever is assigned with whatever action.", "quantifier": "all VHDL objects, all histories of assignments, actions and simulation phases", "why_tests_cant": "Ranges over all objects and histories of assignments.", "anchors": ["src/cocotb/handle.py::ValueObjectBase.value", "src/cocotb/handle.py::ArrayObject._set_value", "src/cocotb/share/lib/gpi/vhpi/VhpiImpl.cpp::is_const", "src/cocotb/share/lib/gpi/vhpi/VhpiImpl.cpp::VhpiImpl::create_gpi_obj_from_handle", "src/cocotb/share/lib/gpi/fli/FliImpl.cpp::FliImpl::create_gpi_obj_from_handle"]}
{"id": "C127", "title": "Phases of a time step with Verilator", "statement": "With Verilator every time step runs in order: NextTimeStep, timed triggers, evaluation until nothing is left to evaluate, ReadWrite and its writes, evaluated again until nothing changes, then ReadOnly once; after ReadOnly nothing is evaluated, written or triggered until time goes on. Time goes on to the earliest thing due and never back. The end of simulation is announced once, last, when nothing is due or the simulation was told to finish. A ReadWrite awaited before the ReadOnly phase fires in the same time step.", "quantifier": "all designs, all callbacks of the user and everything they do, all lengths of execution", "why_tests_cant": "Ranges over all designs, all sets of callbacks and all interleavings of their effects, including executions that do not end.", "anchors": ["src/cocotb/share/lib/verilator/verilator.cpp::main", "src/cocotb/share/lib/verilator/verilator.cpp::settle_value_callbacks", "src/cocotb/share/lib/verilator/verilator.cpp::wrap_up"]}
{"id": "C128", "title": "Order of simulator versions", "statement": "Versions of simulators compare number by number as numbers and word by word as text, the first difference decides and a version that continues another is newer; the operators agree with each other, the order is total on versions that can be compared and transitive, any two versions of one simulator can be compared, and a string compares like the version it stands for. The version taken from the output of a simulator is the one it states, whatever follows; the runner for NVC keeps case from 1.16 on.", "quantifier": "all version strings, all simulators, all command line outputs", "why_tests_cant": "Ranges over all pairs and triples of strings.", "anchors": ["src/cocotb_tools/_vendor/distutils_version.py::LooseVersion.parse", "src/cocotb_tools/_vendor/distutils_version.py::LooseVersion._cmp", "src/cocotb_tools/_vendor/distutils_version.py::Version.__lt__", "src/cocotb_tools/sim_versions.py::QuestaVersion.parse", "src/cocotb_tools/sim_versions.py::IcarusVersion.from_commandline", "src/cocotb_tools/sim_versions.py::VerilatorVersion.from_commandline", "src/cocotb_tools/sim_versions.py::NvcVersion.from_commandline", "src/cocotb_tools/runner.py::Nvc.__init__"]}
{"id": "C129", "title": "Starting and stopping a clock", "statement": "However a clock is started, stopped and its tasks cancelled: start() raises RuntimeError exactly if the clock was started and not stopped since, stop() exactly if it was not; each run of the clock drives a beginning of the configured waveform from its start() on; from stop() on the clock drives nothing until the next start(); while it runs its signal has the value of the waveform begun by the last start().", "quantifier": "all periods, duty cycles and implementations, all histories of calls of start, stop and cancel, resumptions, callbacks and time steps", "why_tests_cant": "Ranges over every history of calls and every order of the event loop and the simulator.", "anchors": ["src/cocotb/clock.py::Clock.start", "src/cocotb/clock.py::Clock.stop", "src/cocotb/task.py::Task.cancel", "src/cocotb/share/lib/simulator/bind.cpp::GpiClock::start", "src/cocotb/share/lib/simulator/bind.cpp::GpiClock::stop", "src/cocotb/share/lib/simulator/bind.cpp::GpiClock::toggle"]}
{"id": "C130", "title": "Arguments for pytest in the simulator", "statement": "Arguments given as one text, by an option or a variable, are split as a POSIX shell splits a command line without expansions, and a quotation that is not closed or a backslash at the end raises ValueError; pytest in the simulator gets exactly the arguments of the user's pytest (or those given for it), the node id and the keywords of the test that runs the simulation.", "quantifier": "all texts and all lists of arguments, node ids and keywords", "why_tests_cant": "Ranges over every text: quotes, backslashes, blanks and separators at any place.", "anchors": ["src/cocotb_tools/_env.py::get_args", "src/cocotb_tools/_env.py::get_list", "src/cocotb_tools/_pytest/_controller.py::Controller.pytest_configure", "src/cocotb_tools/_pytest/_controller.py::Controller.pytest_runtest_setup", "src/cocotb_tools/_pytest/_init.py::run_regression"]}
{"id": "C131", "title": "Defines, include directories and parameters of a build", "statement": "Every Verilog source is compiled by a command that gives the simulator exactly the defines and include directories passed to build, with the values as given and in their order, and, for simulators that take parameters at build time, exactly the parameters.", "quantifier": "all runners, all sets of sources, defines, include directories, parameters and further build arguments", "why_tests_cant": "Ranges over every combination of arguments and over simulators most of which cannot be installed on a test machine.", "anchors": ["src/cocotb_tools/runner.py::Runner.build", "src/cocotb_tools/runner.py::Icarus._build_command", "src/cocotb_tools/runner.py::Xcelium._get_define_options", "src/cocotb_tools/runner.py::Verilator._build_command"]}
{"id": "C132", "title": "Arguments of a test reach the simulation", "statement": "The plus-arguments of test_args and plusargs reach the simulation in their order and no others do; the parameters of the last call that gave any are set in the simulation; elaboration arguments are used; commands to run before the simulation are all run or refused; SIM_CMD_PREFIX and SIM_CMD_SUFFIX surround the command of the simulation.", "quantifier": "all runners, all arguments of test and all earlier calls of build and test", "why_tests_cant": "Ranges over every combination of arguments, histories of calls and simulators.", "anchors": ["src/cocotb_tools/runner.py::Runner.test", "src/cocotb_tools/runner.py::Questa._test_command", "src/cocotb_tools/runner.py::Nvc._test_command", "src/cocotb_tools/runner.py::Dsim._test_command", "src/cocotb_tools/runner.py::AldecBase._test_command"]}
{"id": "C133", "title": "Waveform files", "statement": "The program for Verilator records waveforms if and only if --trace is given, into the file of the last --trace-file or the default, and refuses options the design was not built for; the waveform file the runner attaches to the results is the one the simulation writes.", "quantifier": "all command lines of the program; all arguments of build and test", "why_tests_cant": "Ranges over every list of arguments, in every order, and every combination of directories.", "anchors": ["src/cocotb/share/lib/verilator/verilator.cpp::main", "src/cocotb_tools/runner.py::Icarus._waves_file", "src/cocotb_tools/runner.py::Icarus._create_iverilog_dump_file", "src/cocotb_tools/runner.py::Verilator._waves_file"]}
{"id": "C134", "title": "Options of the pytest plugin", "statement": "The value of an option is the one on the command line if given, else the one in the configuration file, else the one of its environment variable, else its default; values outside the listed choices are refused; what the plugin exports for the simulation is the chosen value.", "quantifier": "all options, command lines, configuration files and environments", "why_tests_cant": "Ranges over every combination of the sources of every option.", "anchors": ["src/cocotb_tools/_pytest/_option.py::Option", "src/cocotb_tools/_pytest/_option.py::add_options_to_parser", "src/cocotb_tools/_pytest/_option.py::populate_ini_to_options", "src/cocotb_tools/_pytest/plugin.py::pytest_configure"]}
{"id": "C135", "title": "Settings of the hdl fixture", "statement": "build and test of the fixture hdl pass to the runner the arguments given to them, else what the markers of the test and its parents say, the nearest marker winning and lists being extended from the session inwards, else the options; words of the command line come after these, names and values of the command line replace others. NAME=VALUE items and time scales are read as documented.", "quantifier": "all options, trees of markers and arguments", "why_tests_cant": "Ranges over every tree of markers, every set of options and every combination of arguments.", "anchors": ["src/cocotb_tools/_pytest/hdl.py::HDL.build", "src/cocotb_tools/_pytest/hdl.py::HDL.test", "src/cocotb_tools/_pytest/hdl.py::HDL._apply_markers", "src/cocotb_tools/_pytest/plugin.py::_to_dict", "src/cocotb_tools/_pytest/plugin.py::_to_timescale"]}
{"id": "C136", "title": "Defaults and directories of the hdl fixture", "statement": "Without a marker the test module is the test file's name up to its first dot; without a top level it is the first test module without test_ in front or _test at the end; both reach the runner. The directory of a test has only portable characters and no two tests share a directory.", "quantifier": "all requests, file names, markers and node ids", "why_tests_cant": "Ranges over every name, marker and pair of tests.", "anchors": ["src/cocotb_tools/_pytest/hdl.py::HDL.__init__", "src/cocotb_tools/_pytest/hdl.py::_POSIX_PATH"]}
{"id": "C137", "title": "Build arguments and the time scale", "statement": "Every command of a build has exactly the build arguments for the language it compiles, unchanged and in their order; a build uses the time scale it is given unless the runner's documentation says otherwise, and none if it is given none.", "quantifier": "all runners, sources, build arguments and time scales", "why_tests_cant": "Ranges over every list of sources and tagged arguments and over simulators most of which cannot be installed on a test machine.", "anchors": ["src/cocotb_tools/runner.py::Questa._build_command", "src/cocotb_tools/runner.py::AldecBase._build_command", "src/cocotb_tools/runner.py::Verilator._build_command", "src/cocotb_tools/runner.py::Icarus._create_cmd_file", "src/cocotb_tools/runner.py::Ghdl._test_command"]}
{"id": "C138", "title": "A time is counted in steps exactly, whatever number type it is given in", "statement": "A time given as int, float, Fraction or Decimal to Timer, Clock or convert gives the number of steps of exact arithmetic; a float that is the closest one to a whole number of steps gives that number.", "quantifier": "all values of the four types, units, simulator precisions and rounding modes", "why_tests_cant": "Rounding errors of binary and decimal arithmetic appear for a few of infinitely many values; a test that passes on many times says nothing about the next.", "anchors": ["src/cocotb/simtime.py::_get_sim_steps", "src/cocotb/simtime.py::_ldexp10", "src/cocotb/_gpi_triggers.py::Timer.__init__"]}
{"id": "C139", "title": "Times read from the simulation", "statement": "get_sim_time(unit) is the simulation time, or the float closest to it; it never runs backwards, different moments give different values, and a value that was read can be converted back to the steps it stands for.", "quantifier": "all 64-bit simulation times, precisions and units", "why_tests_cant": "2**64 times, and the rounding error depends on each of them.", "anchors": ["src/cocotb/simtime.py::get_sim_time", "src/cocotb/simtime.py::convert", "src/cocotb/simtime.py::_get_time_from_sim_steps"]}
{"id": "C140", "title": "With the FLI, reused callback objects call the right function, once, and no process is created that is not needed", "statement": "With Questa/ModelSim through the FLI, where a callback object and its simulator process are used again for later registrations: the function of a registered Timer, phase or value-change callback is called at most once and never after it was removed; each run of a process calls the function of the registration the simulator runs it for; a registration that still waits is called when its time or edge comes; the number of processes is the largest number of callbacks of a kind that were registered at the same time.", "quantifier": "all sequences of registrations, removals, signal events and wake-ups, in any order", "why_tests_cant": "Which registration gets which reused object depends on the whole history; a stale wake-up of a reused object is a race between a removal and the simulator.", "anchors": ["src/cocotb/share/lib/gpi/fli/FliCbHdl.cpp", "src/cocotb/share/lib/gpi/fli/FliImpl.hpp::FliProcessCbHdlCache", "src/cocotb/share/lib/gpi/fli/FliImpl.cpp::register_timed_callback", "src/cocotb/share/lib/gpi/fli/FliObjHdl.cpp::register_value_change_callback", "src/cocotb/share/lib/pygpi/bind.cpp::handle_gpi_callback"]}
{"id": "C141", "title": "Delays, times and the precision reach the simulator and come back unchanged", "statement": "The simulator is asked for exactly the number of steps of a Timer that is awaited, whichever interface is used; get_sim_time('step') is the simulator's time over the whole range of 64 bits, also where the interface returns halves or negative numbers; the precision is the simulator's. Together: while await Timer(t, unit) waits with an exact t, exactly t units of simulated time pass.", "quantifier": "all delays, all 64-bit times, all precisions from 1 fs to 100 s, the interfaces VPI, VHPI and FLI", "why_tests_cant": "Times of more than 32 bits and lower halves with the top bit set occur only in long simulations; each simulator exercises one interface and few precisions.", "anchors": ["src/cocotb/share/lib/pygpi/bind.cpp::register_timed_callback", "src/cocotb/share/lib/pygpi/bind.cpp::get_sim_time", "src/cocotb/share/lib/gpi/GpiCommon.cpp::gpi_get_sim_precision", "src/cocotb/share/lib/gpi/vpi/VpiCbHdl.cpp::VpiTimedCbHdl", "src/cocotb/share/lib/gpi/vhpi/VhpiCbHdl.cpp::VhpiTimedCbHdl", "src/cocotb/share/lib/gpi/vhpi/VhpiImpl.cpp::get_sim_precision", "src/cocotb/share/lib/gpi/fli/FliCbHdl.cpp::FliTimedCbHdl", "src/cocotb/share/lib/gpi/fli/FliImpl.cpp::get_sim_time", "src/cocotb/_gpi_triggers.py::Timer"]}
{"id": "C142", "title": "make sim ends with status 0 only if the tests were run and passed", "statement": "If 'make' (the target sim) ends with exit status 0, then in this very invocation the simulator was run, ended with exit code 0, and left a readable results file in which no test failed; a results file of an earlier run never counts. With sources in a language the simulator does not support nothing is compiled or run, no results are left and the status is 0. If everything works, the status is 0.", "quantifier": "all simulators, all states of the directory before, all exit codes and outputs of compilers and simulators, all numbers of failed tests, all orders of parallel make", "why_tests_cant": "The outcomes of compilers and simulators, stale files and the number of failures have no bound; the one at which the verdict is wrong (256) is larger than any test suite run in tests.", "anchors": ["src/cocotb_tools/makefiles/Makefile.inc", "src/cocotb_tools/makefiles/Makefile.sim", "src/cocotb_tools/makefiles/simulators/Makefile.icarus", "src/cocotb_tools/makefiles/simulators/Makefile.verilator", "src/cocotb_tools/makefiles/simulators/Makefile.ghdl", "src/cocotb_tools/makefiles/simulators/Makefile.cvc", "src/cocotb_tools/check_results.py::main"]}
{"id": "C143", "title": "make regression ends with status 0 only if the tests passed", "statement": "If 'make regression' ends with exit status 0, the results are there and no test failed, whatever was edited, made or cleaned before. If the simulator is not run, the results are left as they were and are not older than the files they depend on.", "quantifier": "all simulators, all histories of edits, cleaning and invocations of make, all behaviours of compilers and simulators", "why_tests_cant": "What make does depends on all earlier invocations through the files they left and their times.", "anchors": ["src/cocotb_tools/makefiles/Makefile.inc", "src/cocotb_tools/makefiles/Makefile.sim", "src/cocotb_tools/makefiles/simulators/Makefile.icarus", "src/cocotb_tools/makefiles/simulators/Makefile.verilator", "src/cocotb_tools/makefiles/simulators/Makefile.ghdl", "src/cocotb_tools/makefiles/simulators/Makefile.cvc", "src/cocotb_tools/check_results.py::main"]}
{"id": "C144", "title": "What is simulated, and what the results are of, is the current design", "statement": "After every history of edits and invocations of make, if 'make sim' ends with status 0, the design that was simulated last was compiled from the current versions of the sources and CUSTOM_COMPILE_DEPS, with the current arguments; if 'make regression' does, the results it leaves are of the current sources, whether they were made again or not.", "quantifier": "all simulators, all numbers of sources, all histories of edits, cleaning and invocations, also failed ones, all behaviours of compilers that write their output exactly if they succeed", "why_tests_cant": "Stale compiled designs appear only after particular sequences of edits and failed or partial runs.", "anchors": ["src/cocotb_tools/makefiles/Makefile.inc", "src/cocotb_tools/makefiles/Makefile.sim", "src/cocotb_tools/makefiles/simulators/Makefile.icarus", "src/cocotb_tools/makefiles/simulators/Makefile.verilator", "src/cocotb_tools/makefiles/simulators/Makefile.ghdl", "src/cocotb_tools/makefiles/simulators/Makefile.cvc", "src/cocotb_tools/check_results.py::main", "src/cocotb_tools/makefiles/simulators/Makefile.questa-qisqrun", "src/cocotb_tools/makefiles/simulators/Makefile.riviera", "src/cocotb_tools/makefiles/simulators/Makefile.xcelium"]}
{"id": "C145", "title": "The summary shows every test once with its verdict, and the totals match", "statement": "The summary logged at the end of a regression is a table with lines of equal length, with or without colours: one row for each test of the plan, in order, with its name, its status and its times, no ratio for skipped tests; the numbers TESTS, PASS, FAIL, SKIP and XFAIL in the last line are the numbers of rows and of rows that show each status, and add up.", "quantifier": "all regressions (tests, filters, orders, events), all names without blanks around them, all times that fit in their columns, with and without colours and the XFAIL status", "why_tests_cant": "Names, numbers of tests, times and the history of the regression are unbounded; column widths depend on all of them.", "anchors": ["src/cocotb/regression.py::RegressionManager._log_test_summary", "src/cocotb/regression.py::RegressionManager._tear_down"]}
{"id": "C146", "title": "The summary of the pytest plugin lists each cocotb test once with its verdict", "statement": "The cocotb summary of a pytest session lists each cocotb test exactly once, whatever the order of the reports and whatever other tests ran, as failed if and only if one of its phases failed; nothing else is listed; the numbers in the last line are those of the rows.", "quantifier": "all sessions: all numbers of tests, outcomes of setup, call and teardown, expected failures, orders of reports", "why_tests_cant": "The table is put together from reports grouped by category in order of first occurrence, which depends on the whole session.", "anchors": ["src/cocotb_tools/_pytest/plugin.py::pytest_terminal_summary"]}
{"id": "C147", "title": "An array with several dimensions can be indexed one dimension at a time", "statement": "In Verilog simulators that have no objects for parts of an unpacked array (Questa, VCS), indexing an array with fewer in-range indices than it has dimensions gives a handle with the bounds, direction and number of elements of the next dimension; with an index for every dimension it gives exactly the object the simulator has for all indices together; with an index outside of the bounds of its dimension it gives nothing.", "quantifier": "all arrays with any number of dimensions and any bounds, all lists of 32-bit indices, all simulators that find objects only for complete lists of indices", "why_tests_cant": "The number of dimensions and the bounds are unbounded, and which dimension a handle stands for is recovered from its name.", "anchors": ["src/cocotb/share/lib/gpi/vpi/VpiImpl.cpp::VpiImpl::get_child_by_index", "src/cocotb/share/lib/gpi/vpi/VpiObj.cpp::VpiArrayObjHdl::initialise"]}
{"id": "C148", "title": "cocotb-config names the library of an interface", "statement": "For each interface of each simulator, lib_name_path (cocotb-config --lib-name-path) gives the path of its library, and the build installs a file at this path; lib_entry gives the same path, with the function to call if the simulator needs one, and this function is one the library exports. Names are accepted in upper and lower case, other names raise ValueError, and what is accepted exists.", "quantifier": "all interface and simulator names (all texts), both operating systems, all compilers, all directories", "why_tests_cant": "Ranges over all texts, and over systems a test run is not on; the names are computed in one file and the libraries built by another.", "anchors": ["src/cocotb_tools/config.py::lib_name_path", "src/cocotb_tools/config.py::lib_entry", "cocotb_build_libs.py::get_ext"]}
{"id": "C149", "title": "A runner's test loads its interfaces", "statement": "A test loads the interface of each language the runner supports, or those given by gpi_interfaces with the first as the entry point, each once and with its own entry function, then libpython and the Python interface; unknown interfaces raise; a GPI_EXTRA set by the user reaches the simulator.", "quantifier": "all runners, toplevel languages, lists of interfaces, installation paths, environments and loaders", "why_tests_cant": "Lists and paths are unbounded; no test has all simulators; the variables are written by one program and parsed by another.", "anchors": ["src/cocotb_tools/runner.py::Runner.test", "src/cocotb_tools/runner.py::Runner._set_env_common", "src/cocotb_tools/runner.py::Questa._test_command", "src/cocotb/share/lib/gpi/GpiCommon.cpp::gpi_entry_point"]}
{"id": "C150", "title": "make loads the interface of each language of the design", "statement": "With the makefiles of simulators for both languages, the interface of the toplevel's language and, if there are sources in the other language, that of the other are loaded; no others (Xcelium and Incisive always load the VPI); the entry point is that of the toplevel.", "quantifier": "all these makefiles, all combinations of sources and toplevel language, all installation paths", "why_tests_cant": "No test has all simulators, and the directories are arbitrary.", "anchors": ["src/cocotb_tools/makefiles/simulators/Makefile.riviera", "src/cocotb_tools/makefiles/simulators/Makefile.questa-compat", "src/cocotb_tools/makefiles/simulators/Makefile.questa-qisqrun", "src/cocotb_tools/makefiles/simulators/Makefile.xcelium", "src/cocotb_tools/makefiles/simulators/Makefile.ius", "src/cocotb_tools/makefiles/simulators/Makefile.activehdl"]}
{"id": "C151", "title": "The simulator starts the Python of PYGPI_PYTHON_BIN, once", "statement": "If PYGPI_PYTHON_BIN holds a usable path and Python can be started, the library starts Python with exactly this path when it is initialized, registers its functions with the GPI and does neither again, whatever follows; otherwise Python is never started, nothing is registered and no Python code runs. Blanks around the path do not matter.", "quantifier": "all values of PYGPI_PYTHON_BIN, all outcomes of the steps of starting Python, all sequences of further calls by the simulator", "why_tests_cant": "The path is any text and what follows is any history; starting Python cannot be made to fail at will in a test.", "anchors": ["src/cocotb/share/lib/pygpi/embed.cpp::initialize", "src/cocotb/share/lib/pygpi/embed.cpp::get_interpreter_path"]}
{"id": "C152", "title": "Exceptions that reach the simulator are reported and leave nothing behind", "statement": "When Python code called by the simulator ends with an exception, the exception is printed unless it is SystemExit and the GPI is told that the code failed; no exception is left when Python code is called next; entry points are loaded at most once; Python code is never called when Python does not run and never ends the process; the function given to set_sim_event_callback, and no other, is called at each announced end of the simulation until clean-up.", "quantifier": "all histories of calls between simulator and Python that the GPI can produce, nested to any depth, all outcomes of the Python code", "why_tests_cant": "Ranges over all histories and nestings; the simulators used for tests show a few of them.", "anchors": ["src/cocotb/share/lib/pygpi/embed.cpp::start_of_sim_time", "src/cocotb/share/lib/pygpi/embed.cpp::end_of_sim_time", "src/cocotb/share/lib/pygpi/embed.cpp::finalize", "src/cocotb/share/lib/pygpi/bind.cpp::handle_gpi_callback", "src/cocotb/share/lib/pygpi/bind.cpp::set_sim_event_callback"]}
{"id": "C153", "title": "Variables read by the native part have their documented meaning", "statement": "PYGPI_DEBUG and GPI_DEBUG are switches with the documented spellings of true and false; GPI_LOG_LEVEL sets the level of the native and of the Python logger to the level it names; COCOTB_ATTACH makes the simulator wait for the number of seconds it holds, and other values do not.", "quantifier": "all values of these variables (all texts)", "why_tests_cant": "The values are arbitrary texts, and they are read by C++ code at start-up, before tests run.", "anchors": ["src/cocotb/share/lib/pygpi/embed.cpp::initialize", "src/cocotb/share/lib/gpi/GpiCommon.cpp::gpi_init_logging_and_debug", "src/cocotb/logging.py::_init"]}
{"id": "C154", "title": "PYGPI_DEBUG changes nothing but the log", "statement": "A run with PYGPI_DEBUG set calls the same Python code in the same order, with the same results for the GPI, as the run without it.", "quantifier": "all histories of calls between simulator and Python that the GPI can produce", "why_tests_cant": "Ranges over all histories, nested ones included; tests run without the variable.", "anchors": ["src/cocotb/share/lib/pygpi/embed.cpp::initialize", "src/cocotb/share/lib/pygpi/pygpi_priv.hpp::c_to_python", "src/cocotb/share/lib/pygpi/pygpi_priv.hpp::python_to_c"]}
{"id": "C155", "title": "A test has the same verdict under pytest and under the regression manager", "statement": "A function decorated with the cocotb decorators (skip, expect_fail, expect_error, timeout) and run with the pytest plugin gets the verdict that the regression manager of cocotb gives it: passed, failed, expected failure or skipped. Its timeout is the one given to the decorator, or else that of its own markers.", "quantifier": "all tests, all decorator arguments, all exception hierarchies, all ways the test can end, all other markers of the function", "why_tests_cant": "Ranges over all exception classes, arguments and endings, and compares two implementations of the same rules.", "anchors": ["src/cocotb_tools/_pytest/_compat.py::cocotb_decorator_as_pytest_marks", "src/cocotb/_test_manager.py::TestManager", "src/cocotb/regression.py::RegressionManager._score_test"]}
{"id": "C156", "title": "pytest makes the calls that cocotb.parametrize describes", "statement": "For a function with parametrize options, pytest runs the tests that cocotb generates for it, in the same order, each with the same arguments.", "quantifier": "all lists of options, with any numbers of names and values", "why_tests_cant": "The number of options, names and values is unbounded, and the order is that of an iterated product.", "anchors": ["src/cocotb_tools/_pytest/_compat.py::cocotb_decorator_as_pytest_marks", "src/cocotb/_decorators.py::TestGenerator.generate_tests"]}
{"id": "C157", "title": "Each test is run in the right process, once", "statement": "With the pytest plugin, the simulator runs the cocotb tests of the modules it is given, each once, and nothing else; the main process never runs a cocotb test, and it runs each runner, and each test that has nothing to do with cocotb, exactly once.", "quantifier": "all sets of modules, with any functions, markers, decorators and runners", "why_tests_cant": "Ranges over all test suites; a test lost or run twice in some arrangement of markers shows in no report.", "anchors": ["src/cocotb_tools/_pytest/_controller.py::Controller._collect", "src/cocotb_tools/_pytest/_runner.py::Runner.collect", "src/cocotb_tools/_pytest/_regression.py::RegressionManager._collect"]}
{"id": "C158", "title": "Tests and fixtures get the values of the fixtures they request", "statement": "With the pytest plugin, every fixture and every test, asynchronous or not, is called with the values of the fixtures it requests; a test whose fixtures all have values is called, no test twice, and in order.", "quantifier": "all sets of fixtures with any dependencies and scopes, all sequences of tests, all failures of fixtures", "why_tests_cant": "Ranges over all graphs of fixtures, scopes and failures, and over what earlier tests left in the cache.", "anchors": ["src/cocotb_tools/_pytest/_fixture.py::AsyncFixtureCachedResult.__getitem__", "src/cocotb_tools/_pytest/_fixture.py::resolve_fixture_arg", "src/cocotb_tools/_pytest/_regression.py::RegressionManager.pytest_fixture_setup", "src/cocotb_tools/_pytest/_regression.py::RegressionManager.pytest_pyfunc_call"]}
{"id": "C159", "title": "Test reports reach the main process exactly once", "statement": "A test report of the simulator is sent to the main process exactly once, or the user is told that it could not be sent; the main process hands every report that came before the end of the session on to its plugins, once and in order, whatever plugins raise and whichever connections break, and tells the user of each such error.", "quantifier": "all sequences of successes and failures of connections, all sequences of messages, all behaviours of plugins", "why_tests_cant": "Connections fail by chance, and at points that cannot be chosen in a test.", "anchors": ["src/cocotb_tools/_pytest/_regression.py::RegressionManager.pytest_runtest_logreport", "src/cocotb_tools/_pytest/_controller.py::Controller._handle_test_reports", "src/cocotb_tools/_pytest/_controller.py::Controller.pytest_sessionfinish"]}
{"id": "C160", "title": "Reports contain the log messages of their phase", "statement": "The report of a test phase contains the messages logged in that phase with at least the level in force, those of all its coroutines included; after the phase the root logger has its old level and no longer captures messages.", "quantifier": "all phases with any number of coroutines, all messages and levels", "why_tests_cant": "Ranges over all numbers of coroutines, messages and levels.", "anchors": ["src/cocotb_tools/_pytest/_regression.py::RegressionManager._save_logging_state", "src/cocotb_tools/_pytest/_regression.py::RegressionManager._restore_logging_state", "src/cocotb_tools/_pytest/_regression.py::RegressionManager._update_report_section"]}
{"id": "C161", "title": "All tests of the given modules are found", "statement": "The tests registered for a regression are exactly those that names of the modules in COCOTB_TEST_MODULES stand for once the modules have been imported, each once, in the order of the modules and of the definitions; modules without tests and tests without parameter values are warned about; the start fails exactly if a module cannot be imported, parameters are malformed or there is no test.", "quantifier": "all lists of modules and all sequences of definitions, redefinitions, deletions and imports in them", "why_tests_cant": "Ranges over all programs that modules can be made of.", "anchors": ["src/cocotb/regression.py::RegressionManager.discover_tests", "src/cocotb/regression.py::RegressionManager.register_test"]}
{"id": "C162", "title": "COCOTB_LIST_TESTS lists the tests that would be run", "statement": "With COCOTB_LIST_TESTS the names of the tests that would be run without it are printed, in the order they would be run. Nothing is listed or run without modules or if COCOTB_TESTCASE and COCOTB_TEST_FILTER are both set; tests marked as skipped are run only if one of the two is set.", "quantifier": "all environments, modules, stages and filters", "why_tests_cant": "Ranges over all combinations of variables and tests.", "anchors": ["src/cocotb/regression.py::RegressionManager.list_tests", "src/cocotb/regression.py::_run_regression", "src/cocotb/regression.py::_setup_regression_manager"]}
{"id": "C163", "title": "One trigger object for each edge of a signal", "statement": "RisingEdge(s), FallingEdge(s), ValueChange(s) and Edge(s), and the attributes of the signal, give the same trigger object whenever asked for the same edge of the same signal, and different objects otherwise; ReadOnly(), ReadWrite() and NextTimeStep() are one object each, every Timer is a new one. The object is for what was asked. Asking succeeds exactly for signals that can change, with one bit for rising and falling edges, and otherwise the constructor raises TypeError.", "quantifier": "all sequences of such expressions, all simulation objects", "why_tests_cant": "Ranges over all histories of expressions and all classes of objects.", "anchors": ["src/cocotb/_gpi_triggers.py::RisingEdge", "src/cocotb/_gpi_triggers.py::_EdgeBase._make", "src/cocotb/handle.py::LogicArrayObject.rising_edge", "src/cocotb/_utils.py::singleton"]}
{"id": "C164", "title": "combine_results combines the files found in the directories", "statement": "The command combine_results reads exactly the files with a matching name in the given directories and those below, each once; the combined file has all their test cases; the exit code is 1 exactly if one of them failed; a file that is not XML makes the command fail and nothing is written; run again it gives the same result.", "quantifier": "all trees of directories and files, all lists of directories, patterns and output names", "why_tests_cant": "Ranges over all directory trees.", "anchors": ["src/cocotb_tools/combine_results.py::_find_all", "src/cocotb_tools/combine_results.py::main"]}
{"id": "C165", "title": "Deprecated LogicArray attributes read and write the whole value", "statement": "Assigning to binstr, integer, signed_integer or buff replaces all elements by what was given, whatever the range, and the same attribute then reads it back; a value that does not fit raises ValueError (IndexError for binstr of an array without elements) and changes nothing. The range never changes.", "quantifier": "all arrays, ranges, strings, integers and byte strings", "why_tests_cant": "Ranges over unbounded lengths and values and over all cached representations.", "anchors": ["src/cocotb/types/_logic_array.py::LogicArray.binstr", "src/cocotb/types/_logic_array.py::LogicArray.integer", "src/cocotb/types/_logic_array.py::LogicArray.signed_integer", "src/cocotb/types/_logic_array.py::LogicArray.buff"]}
{"id": "C166", "title": "repr of cocotb.types can be evaluated", "statement": "For every Logic, Bit, Range, LogicArray and Array, the elements of an Array being such objects, ints, plain strings or lists of them, evaluating the text of repr() gives an equal object of the same class and with the same range; objects with the same text are the same.", "quantifier": "all such values, of any size and nesting", "why_tests_cant": "Ranges over unbounded, nested values.", "anchors": ["src/cocotb/types/_range.py::Range.__repr__", "src/cocotb/types/_logic.py::Logic.__repr__", "src/cocotb/types/_logic_array.py::LogicArray.__repr__", "src/cocotb/types/_array.py::Array.__repr__"]}
{"id": "C167", "title": "Printing a task", "statement": "repr(task) returns a text for every task, whatever tasks wait for; the text starts with the name of the task, its state and the coroutine function in which it is suspended, and ends with '>'.", "quantifier": "all sets of tasks, states and waiting relations, all chains of awaited coroutines", "why_tests_cant": "Ranges over all graphs of waiting tasks.", "anchors": ["src/cocotb/task.py::Task.__repr__", "src/cocotb/task.py::Task._get_coro_stack", "src/cocotb/_utils.py::walk_coro_stack", "src/cocotb/_concurrent_waiters.py::gather"]}
{"id": "C168", "title": "Coverage and profiles are complete and written once", "statement": "COCOTB_USER_COVERAGE decides whether coverage is recorded, if it is set to anything, otherwise COVERAGE does. With coverage on, all user code that is run, importing the test modules included, is in the file, which is written exactly once even if setting up the regression fails. The profile is written once if profiling is enabled and has exactly what was run in calls from the simulator. Neither is written if not asked for.", "quantifier": "all environments, start-ups, sequences of calls from the simulator and ends of the simulation", "why_tests_cant": "Ranges over all runs and points at which the simulation can end.", "anchors": ["src/cocotb/_init.py::_start_user_coverage", "src/cocotb/_profiling.py", "src/cocotb/_shutdown.py::_shutdown", "src/cocotb/regression.py::RegressionManager._on_sim_end", "src/cocotb/_gpi_triggers.py::GPITrigger._react"]}
{"id": "C169", "title": "The path of an object leads to it", "statement": "The _path of an object (names joined by dots, '::' in packages, indexes in brackets) is a way to it: following it from cocotb.top or the package, at any time, gives an equal object. Objects with the same path are equal, and the path of an object does not depend on the order in which a program looked things up.", "quantifier": "all designs, all histories of lookups and listings", "why_tests_cant": "Ranges over all designs and all histories of lookups.", "anchors": ["src/cocotb/handle.py::SimHandleBase._path", "src/cocotb/handle.py::HierarchyObject._child_path", "src/cocotb/handle.py::HierarchyArrayObject._child_path", "src/cocotb/handle.py::ArrayObject.__getitem__", "src/cocotb/handle.py::LogicArrayObject.__getitem__", "src/cocotb/handle.py::_make_sim_object"]}
{"id": "C170", "title": "Listing a design through the FLI", "statement": "With Questa's FLI, listing a region gives its constants, signals and regions, each as a lookup of its name gives it, with generate loops under their labels, and leaves out nothing that a lookup would find. A generate loop lists exactly its blocks, each as indexing gives it, and a record exactly its fields.", "quantifier": "all designs, regions, loops and records, however many calls the caller makes", "why_tests_cant": "Ranges over all designs; needs a commercial simulator.", "anchors": ["src/cocotb/share/lib/gpi/fli/FliImpl.cpp::FliIterator::FliIterator", "src/cocotb/share/lib/gpi/fli/FliImpl.cpp::FliIterator::next_handle", "src/cocotb/share/lib/gpi/fli/FliImpl.cpp::FliIterator::populate_handle_list", "src/cocotb/share/lib/gpi/fli/FliImpl.cpp::FliImpl::get_child_by_name"]}
{"id": "C171", "title": "Tracebacks of exceptions that end tasks", "statement": "The traceback of the exception a task ended with shows the frames of the task's coroutine and, if the exception came out of another task that was awaited, the frames of that task, without frames of the scheduler; it stays as it is after the task has ended.", "quantifier": "all exceptions and call stacks, all histories of tasks that fail, are awaited and fail others", "why_tests_cant": "Ranges over all histories of tasks awaiting each other.", "anchors": ["src/cocotb/task.py::Task._resume", "src/cocotb/task.py::Task.result", "src/cocotb/task.py::Task.exception", "src/cocotb/_utils.py::remove_traceback_frames"]}
{"id": "C172", "title": "Times in the reports of the pytest plugin", "statement": "Every report of a phase of a test under pytest says at which simulation time the phase began and ended and how long it took on the clock; together the reports of a session account for all simulation time exactly once; the simulation time of a report is what the fixtures and the test function took; the ratio in the report is the one in the summary.", "quantifier": "all sessions: items with any asynchronous fixtures, durations and outcomes", "why_tests_cant": "Ranges over all sessions and all interleavings of synchronous and asynchronous phases.", "anchors": ["src/cocotb_tools/_pytest/_regression.py::RegressionManager._call_and_report", "src/cocotb_tools/_pytest/_regression.py::RegressionManager.pytest_runtest_makereport", "src/cocotb_tools/_pytest/_regression.py::RegressionManager._start", "src/cocotb_tools/_pytest/plugin.py::pytest_terminal_summary"]}
{"id": "C173", "title": "Name, version and arguments of the simulator", "statement": "The name, the version and the command line arguments of the simulator that Python gets are those the simulator gives through its interface, the same ones each time they are asked for and in any order; if the simulator does not answer they are UNKNOWN or none.", "quantifier": "all simulators (answers, failures, use of memory for strings), all sequences of queries, VPI, VHPI and FLI", "why_tests_cant": "Ranges over the behaviour of all simulators, including which calls fail and how they use memory.", "anchors": ["src/cocotb/share/lib/gpi/vpi/VpiImpl.cpp::VpiImpl::get_simulator_args", "src/cocotb/share/lib/gpi/vhpi/VhpiImpl.cpp::VhpiImpl::get_simulator_args", "src/cocotb/share/lib/gpi/fli/FliImpl.cpp::FliImpl::get_simulator_args", "src/cocotb/share/lib/pygpi/bind.cpp::get_argv"]}
{"id": "C174", "title": "Paths in files of results", "statement": "With COCOTB_RESULTS_RELATIVE_TO (or the workspace of combine_results) a path in a file of results, read from that directory, leads to the file that is meant, and is relative exactly for files below that directory; in messages and captured output the directory is taken off from paths below it and nothing else is changed.", "quantifier": "all file systems with symbolic links, directories, paths and texts; all sequences of paths and changes of the current directory", "why_tests_cant": "Ranges over all paths, directories and texts.", "anchors": ["src/cocotb/_xunit_reporter.py::XUnitReporter.normalize_path", "src/cocotb/_xunit_reporter.py::XUnitReporter._normalize_text", "src/cocotb_tools/_pytest/_regression.py::RegressionManager._normalize_path", "src/cocotb_tools/combine_results.py::main"]}
{"id": "C175", "title": "cocotb.top while pytest collects tests", "statement": "A test module that uses cocotb.top at module level can be imported while pytest collects tests outside of a simulation: expressions with the stand-in have a value and do not raise or hang, its children are stand-ins, its number and length are 0, as a condition it is false, and comparisons with it are false.", "quantifier": "all expressions built of attributes, items, calls, comparisons, conditions, conversions, arithmetic, ranges, membership and iteration, of any depth", "why_tests_cant": "Ranges over all expressions of any depth.", "anchors": ["src/cocotb_tools/_pytest/_handle.py::MockSimHandle"]}
{"id": "C176", "title": "The simulator that pytest uses", "statement": "With auto (or nothing) pytest uses the first installed simulator in the documented order, a simulator that is named is used or refused but never replaced, unknown names are refused with ValueError, and every simulator with a runner can be chosen and is reported by the name it was chosen by.", "quantifier": "all sets of installed commands and all values of the option", "why_tests_cant": "Ranges over all sets of installed commands and all names.", "anchors": ["src/cocotb_tools/_pytest/hdl.py::_get_simulator", "src/cocotb_tools/runner.py::get_runner", "src/cocotb_tools/runner.py::SUPPORTED_RUNNERS"]}
{"id": "C177", "title": "Markers with --strict-markers", "statement": "Every marker that the pytest plugin obeys can be used with --strict-markers, whatever its parameters, defaults and documentation; markers of the project stay registered.", "quantifier": "all signatures and documentation of the marker functions, all lists of markers of the project, all names", "why_tests_cant": "Ranges over all signatures, texts and names.", "anchors": ["src/cocotb_tools/_pytest/mark.py::_marker_description", "src/cocotb_tools/_pytest/mark.py::_register_markers"]}
{"id": "C178", "title": "Modules of a test that runs a simulation", "statement": "The modules whose tests pytest collects for a test marked with cocotb_runner are the ones, and from the files, that its simulation runs: those of the nearest marker, or its own; the documented function cocotb_runner makes such a marker for the modules it is given.", "quantifier": "all markers at all levels from the session to the function, all names of modules and files, all sets of files and importable modules", "why_tests_cant": "Ranges over all combinations of markers and files.", "anchors": ["src/cocotb_tools/_pytest/_runner.py::Runner.collect", "src/cocotb_tools/_pytest/hdl.py::HDL._mark_cocotb_runner", "src/cocotb_tools/_pytest/mark.py::cocotb_runner"]}
{"id": "C179", "title": "The simulation time in log messages", "statement": "Every message that is written shows the simulation time at which it was logged, to the nearest hundredth of the unit, or no time if there is no simulation; a handler that writes at once writes all messages, in order; messages can be logged with attributes of their own.", "quantifier": "all sequences of messages, of changes of the time and of handlers that pass on the messages they keep; all chains of handlers, all times, units and precisions", "why_tests_cant": "Ranges over all histories of messages, times and handlers.", "anchors": ["src/cocotb/logging.py::SimTimeContextFilter", "src/cocotb/logging.py::_simtime_fmt", "src/cocotb_tools/_pytest/_logging.py::SimContextFilter", "src/cocotb_tools/_pytest/_logging.py::Logging"]}
{"id": "C180", "title": "Choosing cocotb tests with -k and -m", "statement": "pytest -k runs exactly the cocotb tests for which the expression is true of the names of the test and of its runner; pytest -m runs exactly those for which it is true of the markers of the test. Names of directories do not count, and what the runner hands to the simulator loses and adds no match.", "quantifier": "all expressions, all runners with all lists of tests, all names and markers", "why_tests_cant": "Ranges over all expressions and all trees of tests; the choice is made twice, in two processes.", "anchors": ["src/cocotb_tools/_pytest/_controller.py::Controller._collect", "src/cocotb_tools/_pytest/_controller.py::Controller.pytest_runtest_setup", "src/cocotb_tools/_pytest/_regression.py::RegressionManager._collect", "docs/source/pytest_plugin.rst::Test Discovery"]}
{"id": "C181", "title": "Warnings about changed indexing", "statement": "With COCOTB_INDEXING_CHANGED_WARNING set, reading an index or a slice of a value from a handle, or of a slice of it, that means something else than in cocotb 1.x is warned about and nothing else is; the index or slice named in the warning has the elements that the one used had in cocotb 1.x. Without the variable there are no warnings.", "quantifier": "all values and ranges, all indices and slices", "why_tests_cant": "Ranges over all ranges, lengths and indices, and over both kinds of values; a missing warning is silent.", "anchors": ["src/cocotb/types/_indexing.py::indexing_changed", "src/cocotb/types/_array.py::Array.__getitem__", "src/cocotb/types/_logic_array.py::LogicArray.__getitem__", "src/cocotb/types/_logic_array.py::LogicArray._from_handle", "src/cocotb/handle.py::LogicArrayObject.get", "src/cocotb/handle.py::ArrayObject.get", "docs/source/update_indexing.rst"]}
{"id": "C182", "title": "Names and loggers of tasks", "statement": "The name of a task is the one given last, at its creation or with set_name; each message of a task goes to the logger cocotb.task.NAME of the name it has at that time. Tasks that were never given a name have different names.", "quantifier": "all histories of creations, renamings and messages, tasks of all classes", "why_tests_cant": "Ranges over all histories; the logger is cached, and the numbers are counted in attributes of classes.", "anchors": ["src/cocotb/task.py::Task.__init__", "src/cocotb/task.py::Task.set_name", "src/cocotb/task.py::Task.get_name", "src/cocotb/task.py::Task._log"]}
{"id": "C183", "title": "Packages of the design", "statement": "cocotb.packages has an attribute for each named SystemVerilog package of the design and no other, under the name of the package; the attribute is a handle of that package, with a path that ends with `::` in the GPI. Without the VPI it is empty.", "quantifier": "all designs and answers of the simulator, all lists of GPI implementations, all handles made before", "why_tests_cant": "Ranges over all designs and over whether the simulator gives full names of packages with or without `::`.", "anchors": ["src/cocotb/_init.py::_process_packages", "src/cocotb/share/lib/pygpi/bind.cpp::package_iterate", "src/cocotb/share/lib/gpi/GpiCommon.cpp::gpi_iterate", "src/cocotb/share/lib/gpi/vpi/VpiIterator.cpp::VpiPackageIterator::next_handle"]}
{"id": "C184", "title": "Failures in the terminal", "statement": "In a pytest session with the plugin each failure of a phase of a test, runner or not, is shown with its traceback exactly once in its section; the last line counts each category; the short summary lists each failure; the last line is red if and only if something failed, and green if all tests passed.", "quantifier": "all sessions: all numbers of reports, phases and outcomes, tests that are runners and tests that are not", "why_tests_cant": "Ranges over all sessions.", "anchors": ["src/cocotb_tools/_pytest/plugin.py::pytest_report_teststatus", "src/cocotb_tools/_pytest/plugin.py::pytest_terminal_summary"]}
{"id": "C185", "title": "Language of the toplevel under pytest", "statement": "Without an option for the language, a test that builds a design of its own with the fixture hdl simulates it with the language of its own sources, whatever was built for the session; a test that builds nothing simulates the design of the session with the language of its sources; a language given to test() is the one that is used.", "quantifier": "all simulators, all designs of the session and of the test", "why_tests_cant": "Ranges over all combinations of simulators and of designs built for session and test.", "anchors": ["src/cocotb_tools/_pytest/plugin.py::hdl", "src/cocotb_tools/_pytest/hdl.py::HDL.__init__", "src/cocotb_tools/_pytest/hdl.py::HDL.test", "src/cocotb_tools/runner.py::Runner._check_hdl_toplevel_lang"]}
{"id": "C186", "title": "Variables of tasks", "statement": "A variable set through task.locals, or through current_task().locals while the task runs, belongs to this task: reading it gives the value last set for this very task, whatever other tasks did with variables of the same name in between, and raises AttributeError if it was never set or was deleted. Outside of tasks current_task() raises RuntimeError.", "quantifier": "all histories of creating, resuming and suspending tasks and of setting, deleting and reading variables", "why_tests_cant": "Ranges over all interleavings of tasks.", "anchors": ["src/cocotb/task.py::Task.locals", "src/cocotb/task.py::current_task", "src/cocotb/task.py::Task._resume"]}
{"id": "C187", "title": "Asynchronous fixtures and ordinary tests", "statement": "With the pytest plugin, runners and ordinary tests in the main process are not affected by asynchronous autouse fixtures meant for cocotb tests: no code of an asynchronous fixture runs there, a test that requests one with autouse gets None, and tests that do not request them run as if only the fixtures they need themselves were set up.", "quantifier": "all sets of fixtures with any dependencies, scopes and autouse, all sessions of tests", "why_tests_cant": "Ranges over all graphs of fixtures and all sequences of tests that share cached fixtures.", "anchors": ["src/cocotb_tools/_pytest/_controller.py::Controller.pytest_fixture_setup"]}
