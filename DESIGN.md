# Formal model of criticalstack/swoll in Lean 4

## 1. Approach

The model is a set of small total Lean functions that follow the Go (and BPF C)
code function by function.  Each model definition carries a comment citing the
file and lines it models and what was simplified.  Layout:

* `lean/Verif/Util/*`  – Go maps (association lists), list and bit-vector lemmas.
* `lean/Verif/Model/*` – the code, one file per package/area.
* `lean/Verif/Spec/*`  – small independent specifications (what the English property says).
* `lean/Verif/Lemmas/*` – helper lemmas (not claims).
* `lean/Verif/Props/*` – the property theorems listed in `MANIFEST.json`, each with
  an `example` showing its hypotheses are met by a concrete non-trivial case.

Where the code violates the property, the full statement is refuted by a theorem
`cNN_..._violated` (concrete reachable witness), and what does hold is proved for all
inputs as `cNN_..._partial`.

## 2. Trusted base

### Kernel and axioms

* Lean 4.33.0 kernel.  Every theorem depends on a subset of `propext`, `Classical.choice`,
  `Quot.sound`; no axioms are added and nothing rests on compiled code.  Tables are
  settled with `decide +kernel`, that is by the kernel's own evaluation of a whole finite table,
  and lifted to the general statement by a lemma.  Mathlib is not used.
* To see the axioms of a theorem: `#print axioms Swoll.Props.<Area>.<theorem>`.

### Transcription

The step from Go and C to Lean is by hand.  Every definition of `Model/*` cites its lines.
The two generated tables (`SyscallTable`, the rows of `FlagTables`) were transcribed
mechanically from the source text.

### Conventions

* a Go map is an association list without duplicate keys; iteration order, where it
  is observable, is an arbitrary permutation given as a parameter;
* `container/list` elements are identified by unique context identifiers;
* a critical section protected by a mutex is one atomic step; everything a goroutine does
  outside of a lock is a separate step, and a list of steps is any interleaving;
* a BPF map is a Go map plus an iteration order; each BPF program run is one atomic step
  (except in Model/Smp, where handlers of different CPUs interleave at their map accesses);
  map capacity is not modelled unless stated (Model/Bounded says what it changes);
* Go `int` is 64 bit; where wrap-around matters `BitVec` or an explicit modulus is used;
* nil dereferences, panics, `log.Fatal` and errors are explicit outcomes.

### Libraries taken at their documented behaviour

| Where | What is trusted |
|---|---|
| Model/Filter, Probe | the kernel's BPF hash map and its get_next_key contract |
| Model/Event | x86-64 layout of the C structure, `encoding/binary` little endian, `bpf_probe_read` failing as a whole |
| Model/FlagTables | linux/amd64 constants of Go's `syscall` and `x/sys/unix` |
| Model/EventText | encoding/json and encoding/base64 writing; gorilla/websocket's `WriteJSON` (a newline after the value) and `SetReadLimit` |
| Model/EventRead | encoding/json and encoding/base64 reading: the last of several members counts, names match in either case, unknown members are skipped |
| Model/EventJSON, Flags | `encoding/json`: numbers, base64 byte slices, structures; strings not in UTF-8 are replaced |
| Model/JobArgs | pflag 1.0.5, `encoding/csv`, label parsing of k8s.io/apimachinery |
| Model/Controller | Kubernetes API: resource versions, finalizers, caches that may be behind |
| Model/Offsets | `regexp`, `bufio.Scanner`, `strings.Fields`, `strconv.ParseInt`, the output form of objdump |
| Model/Server | `net/http` runs handlers concurrently |
| Model/Views | IEEE rounding as `roundTo`; the prometheus registry rejects duplicate series |
| Model/Lifecycle | gobpf's `elf.Module`, a log of calls with arbitrary answers |
| Model/Client | `net/url`, the redirects of the `net/http` client (301 becomes GET, at most 10), gorilla/mux 1.7.4 with StrictSlash, gorilla/websocket 1.4.2 dialer (follows no redirects) |
| Model/Hash | `hash/crc64` is computed bit by bit for the collision witness and arbitrary elsewhere |
| Model/Sync | `sync.Mutex` and `sync.RWMutex` (a waiting writer keeps new readers out); gorilla/websocket allows one writer; a goroutine's actions are atomic and sequentially consistent |
| Model/Print | `fmt` verbs %s, %v, %x, %f and widths, `os.FileMode.String`, decimal rounding of float64; colours off; linux/amd64 layout of `syscall.Stat_t` |
| Spec/Linux | the system call table, socket constants, limits and ptrace requests of x86-64 Linux, transcribed from the kernel's headers |
| Model/Cluster | the Kubernetes API: label and field selectors, watches; the informer of client-go 0.18.4: order of changes per pod, which callback is called, what a new list does |
| Model/Json, Model/Duration, Model/Wire | encoding/json (compact and indented writing with HTML escapes, the scanner and the decoder for the types of a trace, names of fields without regard to case), `time.Duration.String`, `time.ParseDuration`, and the JSON tags of apimachinery 0.18.4 are modelled as they are written; texts are sequences of Unicode characters (the bytes are not), the limit of 10000 nested values is left out |
| Model/PubSub | `sort.Sort` returns a sorted permutation; `math/rand` is arbitrary |

### What is modelled

| Model file | Code |
|---|---|
| Alert | internal/pkg/alert/{alert,parser,prometheus,queue}.go |
| Client | pkg/client/endpoint.go (URLs, requests), routes of cmd/server.go |
| Cluster | selectors and informer of pkg/topology/kubernetes.go:154-193, 361-451, the observers of pkg/topology/job.go:92-108 and cmd/server.go:785-792, labels of the pods made by internal/pkg/controller/trace.go |
| CmdLine | the selectors of cmd/top.go and cmd/trace.go, and the observers made of them |
| Json, Duration, Wire | the bodies of the requests and answers about traces: pkg/client/endpoint.go:82-222 (Jobs, CreateTrace), cmd/server.go:86-169, 290-395, 459-487, api/v1alpha1/trace_types.go, and the encoding/json and time it rests on |
| Order | the request of `client create` as it comes in at the server, by way of its JSON (Wire): pkg/client/endpoint.go:90-136, cmd/server.go:329-358 |
| Controller | internal/pkg/controller/trace.go (reconcile), api/v1alpha1/trace_types.go (states) |
| Daemon | pkg/topology/hub.go (`Run`), the other models put together: probe, perf buffer, decoder, cache, jobs, publisher |
| Event, EventTables | event fillers of internal/bpf/probe.c, pkg/event/{raw,trace}.go, pkg/event/call/*.go (all `DecodeArguments`), pkg/types/c.go |
| EventJSON | JSON of `TraceEvent` and of all argument types |
| EventText | the text of that JSON, as sent: cmd/server.go:212, 253, pkg/client/endpoint.go:28, 145 |
| EventRead | a client reading that text: pkg/client/endpoint.go:223-228, pkg/event/trace.go:63-205, the `UnmarshalJSON` methods of the argument types |
| WatchStream | `client watch` from texts to lines: pkg/client/endpoint.go:193-238, cmd/client.go:115-136, with EventRead and Watch |
| Pages | the pages that show a stream: cmd/server.go:904-922, with the routes of Client |
| Answers | status, label and body of the answers and what the client makes of them: cmd/server.go:34-36, 104-169, 272-424, 904-922, pkg/client/endpoint.go:90-142, 249-267, 331-363 |
| Filter | pkg/kernel/filter.go, filter evaluation of probe.c |
| Flags, FlagTables | pkg/types/*.go, flag and constant types of pkg/event/call/*.go |
| Hash | pkg/topology/hash.go, paths of hub.go |
| Host | `swoll trace --no-containers` in cmd/trace.go with probe, perf buffer, decoder and printer; `FilterSelf` of pkg/kernel/filter.go |
| Hub | pkg/topology/{hub,job}.go |
| JobArgs | internal/pkg/controller/trace.go (createJobResource), argument handling of cmd/client.go |
| Lifecycle | pkg/kernel/probe.go, pkg/event/reader/kernel.go |
| Offsets | pkg/kernel/{offsets,offset_helper}.go, cmd/offsetter.go, reads of the offsets in probe.c |
| Print | `CallName` and `Arguments` of pkg/event/call/*.go, the lines of cmd/trace.go and of `client create --oneshot` in cmd/client.go |
| Probe | tracepoint handlers and metrics of probe.c, pkg/kernel/metrics/*.go |
| Smp | the same handlers on any number of CPUs: metrics, sample counters and pairing, cut at their accesses to shared memory |
| PubSub | internal/pkg/{node,pubsub}/*.go |
| Paths | `Paths` as closures with a state: internal/pkg/pubsub/pubsub.go:207-277, 302-317 |
| Server | job handlers of cmd/server.go |
| Service | cmd/server.go (`runServer`, handlers, websocket sessions), pkg/topology/job.go: Server and Daemon put together |
| Site | a node of a cluster: Service, the pods, the runtime, and the observers of the server and of every job (Cluster) put together |
| Startup | cmd/{loader,selftest}.go, settings of cmd/{trace,server,top,offsetter}.go, the log level of cmd/root.go, endpoints of cmd/controller.go |
| ClientCmd | cmd/client.go (create, watch, delete, query over several endpoints), readWebsock of pkg/client/endpoint.go |
| Session | deadlines and pings of cmd/server.go:171-270 and pkg/client/endpoint.go:138-238 |
| Sync | locks and shared tables of pkg/topology/*.go, pubsub.go, queue.go, metrics/handler.go, cmd/server.go, cmd/top.go: which goroutine takes which lock and touches which table in which order |
| Syscalls, SyscallTable | pkg/syscalls/*.go |
| Tracer | cmd/trace.go with containers: hub, job and callback put together |
| DeepCopy | api/v1alpha1/zz_generated.deepcopy.go over a heap; the copies of the library's metadata and selectors by their contract |
| Topology | pkg/topology/{topology,kubernetes,ns}.go, pkg/types/container.go |
| Task | what the probe reads of the calling process: probe.c:1131-1386, over a memory of the kernel; processes and namespaces themselves are in Spec/Task |
| Top | the table and the graphs of `swoll top`: cmd/top.go:199-265, 510-527, over the rows of Views |
| Walk | pkg/kernel/metrics/handler.go against the probe's stores (probe.c:1506, 1529), with the hash table as Linux has it |
| Bounded | the sizes of `swoll_state_map` and `swoll_metrics` (probe.c:222, 248) around the handlers of Model/Probe |
| Ring | the ring of each CPU between the probe and `Probe.Run` (probe.c:2727-2767, probe.go:178-215), with Linux's rule for missed events and gobpf's `PollStart` |
| RuleText | the `String` methods of pkg/kernel/filter.go:333-388 and the lines logged from them (hub.go:301-309, trace.go:261-267) |
| Shutdown | the end of `runServer` and `shutdown` (cmd/server.go:890-902, 925-942), with `http.Server.Shutdown` as its contract: no new request, a look every 500 ms, hijacked connections not waited for |
| Log | the JSON lines of a traced job (cmd/client.go:330-332, pkg/client/endpoint.go:33-44, internal/pkg/controller/trace.go:59-73) and their reader, hack/tools/pretty_logs.go; not how the reader lays out a line |
| Admit | how the API server stores a Trace: the schemas of config/crd/bases and chart/crds/crds.yaml, with pruning and validation as the contract of `apiextensions.k8s.io/v1`, and the list the controller's cache is filled from; not the format of the times in the status |
| Names | the names in the job of a trace (trace.go:43-80) and the API server's rules for names, labels and generated names, as the contract of `k8s.io/apimachinery/pkg/util/validation`; not the rest of the validation of jobs |
| Chart | the Helm chart: names of the objects, labels and selectors, ports, accounts and rules (chart/), with helm's template functions and the API server's rules for names, immutable selectors and RBAC as contracts; both components enabled; not images, volumes, security contexts and probes |
| Argv | the command tree and the tables of flags (cmd/*.go `init`, root.go:81-99), with cobra's search for the command and pflag's parser as contracts, and the command lines the controller and the chart write; the values of number flags as text; not help and completion, nor `KUBECONFIG` as default |
| Examples | examples/basic-trace and examples/kubernetes-basic: the filter each sets up, the probe and the callback; their text is the event; `Ingest` with or without containers. Not the loading of the probe, the offsets (Offsets) or the observer (Topology) |
| FlagUse | which flags and words each command of cmd/ looks at, and what the getters give (`reads`, `get`, `seen`). A flag that is read only on some paths counts as read; what is made of it is in Startup, ClientCmd and others |
| Dashboard | the queries of the panels and variables of internal/deploy/dashboard/dashboard.json over the series of cmd/prometheus.go: the text put in the place of a variable with its escapes, matchers, sums by labels, the largest (`shown`). Grafana and Prometheus are libraries; a series has one rate, a whole number; regular expressions are read as far as the escapes and alternatives that Grafana writes |
| Runtime | pkg/topology/kubernetes.go `getContainerPid`, the loop of `criContainers` with its lookups, pkg/topology/ns.go with `path.Join`. The runtime is what it answers and the proc file system a function from files to inode numbers; both stay the same during one listing. Numbers that are not whole or are 2^53 or more are a library |
| Watch | `ColorString` of pkg/event/trace.go: the line of `swoll client watch`, with fmt's rules for the structures of pkg/event/call/*.go |
| Views | charts of cmd/server.go, cmd/prometheus.go, tables of cmd/top.go |

### What is not modelled

The rest of cmd/{root,controller}.go (flag plumbing, the manager),
the drawing of the terminal UI of cmd/top.go, HTML templates,
pkg/kernel/assets and ross (embedded object code), examples, hack,
logging; the kernel, gobpf, the CRI gRPC calls behind pkg/topology/kubernetes.go;
HTTP and JSON syntax on the wire beyond what the table above says.

## 3. Plan per property
* **C01** A publish reaches exactly the prefix subscribers, once each — Subscription tree (node.go, pubsub.go) as inductive tree of Go maps; state machine over subscribe/unsubscribe; refinement to a flat set of (path, id, subscriber); publish = prefix filter; induction over history.
* **C02** A shard group receives each publish once — Same model; group choice with arbitrary random oracle; theorem on the multiset of invoked members per group.
* **C03** Deterministic routing is a function of the routing key and the members — determineIdx as function of key, length, random; theorem that result is independent of the oracle.
* **C04** Unsubscribing removes one subscription and prunes the tree — Invariant 'no empty non-root node' over histories; after removal flat set loses exactly one.
* **C05** Calling an unsubscriber twice is harmless — Violated: second unsubscribe dereferences nil child (ChildLen on nil). Witness + partial (no crash when path still present; removal idempotent on flat set).
* **C06** Path hashing preserves the hierarchy — hashPath over arbitrary hash with 0->1; structural induction.
* **C07** AttachPath sees exactly the requested sub-hierarchy — Composition of C01 and C06 with injectivity hypothesis on the names involved; the hypothesis is proved for names that differ only within eight neighbouring bytes (CRC-64 detects every burst of up to 64 bits, `Lemmas/Crc`).
* **C08** Hub job indexes always mirror each other — Hub state machine (PushJob/DeleteTrace) with nsmap/idmap; mirror invariant by induction.
* **C09** DeleteTrace never reaches its fatal exit and reports unknown jobs — From the invariant: Fatalf branch unreachable (modelled as explicit outcome).
* **C10** DeleteTrace removes only the deleted job, reference counting shared kernel filters — Refinement of hub to a flat list of contexts + kernel filter map; delete = filter; filter removal iff no remaining context.
* **C11** Events are routed to exactly the jobs registered for their namespace and syscall — Event handler function over hub state; delivered list equals the spec count.
* **C12** A job receives an event at most once — Violated: duplicate start or duplicated syscall registers two contexts. Witness + partial (at most once when contexts distinct).
* **C13** The reported lowest-sample job is a true minimum — findLowestSampleJob on lists; minimality and first-position theorem.
* **C14** Each job sampled at rate r receives every r-th event of its pair — Violated: difference instead of ratio, and kernel sampling overwritten. Witness + partial for single job.
* **C15** Event delivery never crashes — Violated: equal rates -> division by zero. Witness + partial with exact crash condition.
* **C16** A started container is observed for every syscall of every job selecting it — Violated: Stop of one job removes the shared filter; partial: with Start/Delete only, coverage invariant holds by induction.
* **C17** Sampling requested by a job takes effect in the kernel — Violated: AddSyscall overwrites with rate 0. Witness + partial: the value actually present.
* **C18** Host selectors restrict a job to named containers — Theorem on the start step.
* **C19** MonitoredHosts reflects the containers currently and ever matched — Violated: re-add after removal. Partial: history characterisation.
* **C20** The container cache resolves a pid namespace to the last started container — processEvent fold; last-event-wins theorem by induction over events.
* **C21** Topology callbacks fire exactly for valid events, after the cache update — Callback trace equals filter of valid events.
* **C22** The Kubernetes observer starts a pod's containers once per phase change and stops them on deletion — Observer state machine over informer notifications with phase cache; theorems on emitted events.
* **C23** Adding then removing a syscall filter restores the filter — Filter map with key packing; add/remove theorems.
* **C24** The kernel filter decision is first match over five precedence levels, default drop — run_nfilter as function of maps; spec as 'first applicable rule'.
* **C25** Kernel sampling passes the first event and then every r-th — Iterated run_nfilter; closed form of pass/drop by induction.
* **C26** User-space rules have the intended kernel effect — Composition of C23/C24.
* **C27** Removing metrics for a namespace stops metrics collection for it — Violated: key mismatch. Witness for every namespace; partial: exact condition.
* **C28** Listing running rules returns each installed rule exactly once — BPF get_next_key iteration over arbitrary order; violated when the zero key is present; partial when absent.
* **C29** Metrics count every completed call in its error bucket — Metrics map state machine; count theorem by induction over histories.
* **C30** Metrics time is the sum of call durations — Violated for interleaved threads/large errors; partial for single outstanding call.
* **C31** Pruning a namespace deletes exactly its metrics — Iteration with deletion over arbitrary order; theorem / violation for zero key.
* **C32** QueryAll returns every metric once — Same iteration lemma.
* **C33** Enter and exit tracepoints are paired per thread — State-map machine over enter/exit; pairing invariant under per-thread bracketing; violated without.
* **C34** Raw event decoding is faithful — Byte-level encoder (C struct layout) and decoder (binary.Read); round trip and length theorem.
* **C35** C strings and integers decode to their memory meaning — Byte list functions; takeWhile characterisation, LE round trip.
* **C36** Decoded arguments equal the arguments the probe captured — Table of fillers and decoders in a small DSL; per-syscall contract theorem for all argument values; violations listed.
* **C37** Argument decoding never reads outside the event — Violated (mprotect); partial for all other decoders.
* **C38** Ingesting any well-sized kernel event never crashes — Violated: undecodable syscalls panic; partial: exact panic condition.
* **C39** Ingest copies header fields faithfully — Field theorem; violated for negative return, pid/tid swapped.
* **C40** Flag sets survive JSON — Flag tables; round-trip over all bit vectors; violated for file flags.
* **C41** Flag parsing names exactly the set bits — Parse membership theorem, permutation of order.
* **C42** Error numbers and names correspond — errno tables, whole-table decide lifted.
* **C43** Syscall lookup is consistent by name and number — Lookup over full syscall table, whole-table decide lifted by lemma.
* **C44** Socket addresses print the port in host order — BitVec theorem for IPv4; violated for IPv6.
* **C45** The alert queue is the set of firing (source, syscall) pairs — Queue refinement to set of firing pairs by induction.
* **C46** Alert callbacks announce exactly the transitions — Callback log theorem.
* **C47** The trace controller moves states forward only — Reconcile as step function with failure oracle; monotone state theorem.
* **C48** A trace creates at most one job on the server — Violated: update failure after create. Partial when updates succeed.
* **C49** Deleting a trace deletes its job — Violated by fall through; partial.
* **C50** A running trace completes once its duration has elapsed — Step theorem on clock; the delays asked for, and from them a bound on when the trace is complete.
* **C51** Kernel offsets are stored as given — Set function over names; truncation of wide ints violated witness.
* **C52** Offset detection reports success only when both offsets were set — Violated: silent success; partial.
* **C53** Kernel symbol search returns a listed address — Line parser; violated on short lines; partial.
* **C54** Job ids are unique among running jobs — Two-step (get; lock+insert) concurrent model; violated by interleaving; partial for atomic requests.
* **C55** A created job is listed until deleted, then listed as completed — Request state machine; violated when the job never matched; partial.
* **C56** Client endpoint URLs are well formed — URL builder; ReadTrace violated.
* **C57** Rate windows hold the most recent samples — Push model; last-n theorem.
* **C58** Aggregated statistics preserve totals — Merge fold; sum preservation.
* **C59** Sankey links conserve counts — Link builder; conservation.
* **C60** Word cloud counts equal the current metrics — Violated (accumulation); partial first load.
* **C61** Prometheus collection exports each metric of a known container exactly once — Collect fold; violated on unknown syscall; partial.
* **C62** Probe lifecycle releases what it acquired — Lifecycle state machine.
* **C63** AttachTrace sees exactly the events of its job — Composition of PubSub and Hash for the hub's job streams; violated for an empty id.
* **C64** Starting a job never crashes the daemon — Job start with explicit nil outcome; violated for unknown names, proved for known ones under any kernel refusal.
* **C65** A job's observer watches the job's namespace and selectors only — Observer options as functions on a configuration record.
* **C66** Alert payloads are parsed entry by entry — Parser as a map over entries.
* **C67** No event shows data of an earlier one — The event buffer keeps its previous content; a field is independent of it unless listed (each listed one proved to leak).
* **C68** Return value and error reflect the system call's result — BitVec model of the exit handler and Ingest; exact range.
* **C69** Named constants survive JSON — Tables and round trip; exact conditions.
* **C70** A client can read back every event the server writes — JSON values of every argument type; which events and fields come back.
* **C71** Socket addresses survive JSON — Byte model of the address union; exact condition.
* **C72** A trace resource reaches the probes as it is written — createJobResource, then pflag/csv, then the client's parser; composition.
* **C73** The top table shows the current counts and their changes — Table update over any sequence of metric lists.
* **C74** Every client call reaches the handler of the job or namespace it names — URL, redirects and router composed.
* **C75** Metrics follow the containers — Daemon histories (any interleaving of probe, topology goroutine and its callback, jobs, users); counting invariant per pid namespace.
* **C76** End to end, users see only true events, in order, once, and only their own — Daemon histories; each sample in the perf buffer is traced to the call that wrote it, each delivery to its sample; recipients from C01 and C11.
* **C77** End to end, no covered call is missed — Daemon histories; a covered call passes the filter (C24), keeps its record, is written, decoded and routed.
* **C78** The daemon survives every history — Daemon histories; each step that can end the process is excluded by an invariant.
* **C79** No two goroutines touch a shared table at once — Model/Sync: functions as programs of lock, unlock, read, write; goroutines are arbitrary runs under arbitrary schedules. Lockset discipline as a type system on programs, soundness by an invariant over steps. Violated for the tables without a lock: witnesses.
* **C80** Goroutines do not wait for each other for ever — Same model; the discipline orders locks by rank; a blocked configuration would need an endless ascending chain of ranks; a measure bounds schedules. Violated for top, re-entrant unsubscribe and alert callbacks: witnesses.
* **C81** A client that does not read holds up nobody else — Same model; the locks of the hub and the subscriptions have the least ranks, so frozen senders block no goroutine that avoids them. Violated for the others: witnesses over all schedules.
* **C82** A deleted job stays deleted — Model/Service: HTTP handlers, job goroutines, websockets and the daemon in one transition system; an invariant along everything after the DELETE. Violated: the goroutine of the job is never cancelled.
* **C83** Every running job can be deleted — Same model; the handler's six steps computed from any reachable state. Violated for jobs that are registered for nothing.
* **C84** Closing a websocket ends its subscription — Same model; invariant relating sessions to subscriptions. Violated for websockets that watch a path.
* **C85** The kernel records only what some job asks for — Same model; every rule in the kernel's table belongs to a registration or to a step a goroutine has still to make. Violated by a deletion in the middle of a callback.
* **C86** No client can end the server — Same model; everything in the daemon's log comes from a request, so C78 applies at every step; the crash of a callback is excluded by the names of the request. Violated for unknown syscalls.
* **C87** A job does what its request asks for — Same model; answered requests have goroutines, their callbacks are followed stage by stage to `Covers`, then C77.
* **C88** A job ends when its duration is over — Same model; jobs last until a DELETE. Violated: a simulation shows that durations change nothing.
* **C89** The printed call is the call that was made — Model/Print on top of the event model; Spec/Print lists the prototypes of the manual pages and says how a value reads. A table-wide check that each printed argument suits its parameter, lifted by lemmas on each way to print. Violated for 20 printed and 17 omitted arguments, each with a witness.
* **C90** Different calls print differently — Same model; each way to read a text determines the value (numbers, names, flag sets, structures, addresses). Violated for whole lines, modes and the words of execve.
* **C91** One event is one line — Same model; no printed piece but a string can hold a line end. Violated by a file name that forges an event.
* **C92** The columns of a line — Same model with float64 rounding; error bounds of division and decimal rounding. Violated after 104 days of uptime, and for the pid.
* **C93** Linux's system calls are known by name and number — Table of Model/Syscalls against Spec/Linux by a certificate of positions. Violated for 68 calls.

* **C94** Host tracing prints exactly the named calls — Model/Host: filter, probe, buffer and printer in one transition system; an invariant pairs the lines printed and the samples waiting with the positions of the history at which a call asked for ended.
* **C95** Host tracing goes on until it is stopped — Same model; every waiting sample is one of a call asked for, so printing succeeds if those are decoded. Violated for names without a decoder.
* **C96** The tracer does not trace itself — Same model; the filter's verdict does not depend on the process. Violated: one foreign write makes a trace of write print without end.
* **C97** The probe loaded is the one named — Model/Startup: files and environment as functions; case analysis. Violated for missing and empty files and for `top`.
* **C98** Settings are taken from the flags, then from the environment — Same model. Violated for `top` and for offsets without `--no-detect-offsets`.
* **C99** The self test passes just on machines that can be traced — Same model with the scanner of Model/Offsets; Spec/Startup says what a line of a file is; an induction relates scanner and expression to it. Violated for unreadable directories, long lines and CONFIG_BPF_SYSCALL.
* **C100** The controller finds the probe of every node — Same model composed with Model/JobArgs. Violated on every cluster of two or more nodes.
* **C101** A command line that cannot be obeyed is refused — Model/Startup and Model/Host. Violated for output formats.
* **C102** `client create` creates the job on every endpoint or on none — Model/ClientCmd: main goroutine, its goroutines, servers and signals as one transition system; invariants. Violated: a failure leaves the job on the endpoints before.
* **C103** A one-shot job leaves nothing behind — Same model with the loop variable shared by the goroutines. Proved for the last endpoint; that all others keep the job is proved too.
* **C104** Watching shows every endpoint's events — Same file, `watch`: an invariant relates what a goroutine got printed and its queue to what its server sent. Violated after a long message and with `--oneshot`.
* **C105** `client delete` deletes the job everywhere — Induction over the endpoints. Violated: it stops at the first endpoint that fails.
* **C106** A client ends when it is told to — A measure decreases with every step after an interrupt. Violated: one-shot never ends by itself, a second interrupt is a crash, an early signal to `watch` is lost.
* **C107** Create, delete and query agree — Composition of the above with the reports of `query`.
* **C108** An idle stream stays open, and a dead one is noticed — Model/Session: deadlines moved by pongs; induction over the pongs. Violated: an answer is allowed 3 s by the server, not the 30 s its constant is called after.
* **C109** Every line of `swoll trace` reports a call that was asked for — Model/Tracer: Daemon, one job of Service and the callback; refinement to a server with one job and one client; the lines are the deliveries in order (invariant), the registrations are those of the names and containers (invariant).
* **C110** `swoll trace` shows every call once — Same model; registrations form a sublist of (announced containers × names); coverage through C87 and C77. Violated when two names mean one call or a container is announced twice.
* **C111** `swoll trace` goes on until it is stopped — Same model; survival of the server (C86) transferred along the refinement, printing never panics for decodable calls. Violated by names that are unknown or have no decoder, which are accepted.
* **C112** A copy of a custom resource shares nothing with it — Model/DeepCopy: cells and addresses; invariant while copying (old cells untouched, new cells mention only new ones, all typed); two holders with disjoint, closed sets of known addresses stay apart under any interleaving of writes and allocations.
* **C113** Metrics count calls exactly once on several CPUs — Model/Smp: handlers cut at lookup and update. Invariant: nothing held or stored exceeds what was counted; a list of the CPUs at work ties that to the calls that returned. Exact when nobody else holds a copy; violated otherwise (calls lost, counts that fall, deleted entries that come back).
* **C114** Sampling keeps its rate on several CPUs — Model/Smp: invariant on the counter and the copies of it; violated when two CPUs read the counter before either writes it.
* **C115** Pairing is exact on several CPUs — Model/Smp: per thread invariant by program counter over any interleaving; per CPU buffers and per thread entries keep threads apart.
* **C116** Classes and groups list every call once — Model/Syscalls: filters over any iteration order of the map `new` builds; the tables' names are distinct.
* **C117** The status tells what was done — Model/Server: invariant tying each handler's program counter to the log; violated by a 500 after the job has left the list.
* **C118** An event shows memory as of the call — Model/Event with a second memory for the time of entry: C36 plus congruence of the specification in the bytes copied; violated for every string field by a thread that swaps the string.
* **C119** Sampled jobs, end to end — Daemon histories; the counter of the job equals the number of its events so far (induction on the history), then C14 for one event and C01 for the users; covered calls are events of the job by C77. Violated when a lower positive rate is present.
* **C120** A job watches exactly the pods its selectors select — Model/Cluster: the selector strings the job writes are parsed back by the API server's parser (round trip through C72's `labels.Set.String`); violated for match expressions, which are dropped.
* **C121** Pods that opt out are never shown — Model/Site: invariant over the history of pods, runtime answers, observers and server: whatever an observer says is about a pod it selected; with C76 every delivery is of a container announced by the server's observer. Violated for the controller's own pods, whose label is overwritten.
* **C122** Observers follow the pods they select — Model/Site: invariant that the pods handled so far plus the pending changes are the selected pods (`Sync`), and that what was said about a container agrees with the pods handled (`Speaks`). Containers that come and go are C22.
* **C123** Losing touch with the API server does no harm — Model/Site: by `Sync` no deletion is ever without its last state if no pod changes meanwhile; violated for a pod deleted meanwhile (the process ends) or recreated (its containers are not announced).
* **C124** Clients of a job are shown only calls the job is about — Model/Site: C76 gives the registration, an invariant gives the notification that caused it, the invariant of C121 the pod, C120 the selector. Violated for a pod that is no longer selected, if another job wants its calls.
* **C125** A line of `client watch` tells the event — Model/Watch, on top of C36, C70 and Model/Print: the header by the theorems of those; the arguments by a table-wide check against what `--oneshot` prints. Violated: every number is printed as a formatter's complaint, and written bytes go to the terminal as they are.
* **C126** Clients of a job are shown every call the job is about — Model/Site: an invariant of the observers says that nothing but its start is ever said of a container of a pod that stays; so (C122) the goroutine was told of it, which happens only when it has nothing else to do, C87 puts the rule in place, an invariant of the goroutines says that only stopped containers lose rules, and C77 with C122 for the server does the rest. Violated when the pod loses a label by which another job selects it: that job takes the rule of both away.
* **C127** Selectors on the command line choose the pods — Model/CmdLine: the options of `swoll top` and the words of `swoll trace`; the parser of C120 on every list of conditions, the reader of C72 on every list of labels with any white space, then C120. Violated for labels that are words of their own (refused) and labels given twice (the last counts).
* **C128** What a trace resource asks for is shown — Model/Order: the request of the client as it comes in at the server. Lemmas/Order: the server answers for the id that was asked for, by induction over the history. Then C72 (resource to request) composed with C126 (request to client). Partial as they are.
* **C129** A trace survives the wire — Model/Json writes and reads JSON texts as encoding/json does; Spec/Json is the grammar of RFC 8259. Lemmas: what is written says the value (induction on the value), what says a value is read as it (induction on the derivation), and what is read is said (induction on the fuel). Model/Duration with `parse_text` and `parse_iff` against Spec/Duration. Model/Wire: the fields of a trace; per-field steps give the round trip of a request, of the answer and of the lists of jobs.
* **C130** A body that is no trace is refused — violated: null, misspelt fields and text after the object are accepted. Proved: exactly which bodies are accepted.
* **C131** A rule decides the calls it is about — Spec/Rule: rules as lists of options. By induction on the options, the key and value a rule gets; then which calls are looked up under that key. Invariant over all histories: a rule in the table has its kind switched on. Violated by the rules that no lookup asks for.
* **C132** Every event reaches a client in a message it accepts — Model/EventText writes events as text. Bounds on the text of every field, lifted over the layouts of all argument types (mutual induction) and a table check of all calls. Violated by mprotect of a page and by execve with control characters.
* **C133** A client is sent what is in the events and nothing else — the text does not depend on memory beside the event, by induction on the layouts. Violated by mprotect (bytes that follow) and nanosleep (addresses).
* **C134** A client reads from the message of an event what the server put into it — Model/EventRead reads texts as a client does. Lemmas: strings, numbers and base64 are read as written; the layout of each argument type is read back by a symbolic run of writer and reader, checked for the table of all types and lifted to all bytes; then the header, member by member. With C70 this gives what a client has. Nanosleep's times are missing.
* **C135** No message can crash a client — violated by an object without system call and by null. By induction on the members: only an object whose last system call is null or missing crashes, and with C134 no message of the server.
* **C136** A watching client prints the calls that were made, one line each, in order — Model/WatchStream: texts to lines. Composition of C36, C39, C68 (what the event says of the call), C132 (it fits), C134 (it is read) and C125 (the line), by induction on the calls; with the histories of C104 for several endpoints.
* **C137** The page of a stream opens that stream — Model/Pages over Model/Client: from the answer back to the route and the parts of the path (a path that is not redirected consists of plain names), unescaping of a path with `/ws` behind it, and forth to the route of the stream. For every request target.
* **C138** The answers of the API are what they say they are — Model/Answers: `http.ResponseWriter` as headers, what is sent at the first `WriteHeader`, and body. Bodies against the grammar of JSON (C129). Violated: no JSON answer is labelled as JSON (the header is set after it is sent); a failed handshake is answered twice in one.
* **C139** A client whose request is refused is told the reason — composition of C138 with the client's side. Proved for creation; violated for deletion and streams, whose reasons are dropped.
* **C140** Combined paths visit every path of every part — Model/Paths: closures as values that change when they are called. By induction on what a part yields, then on the parts; nesting by composition. With C01 for deliveries. Violated when combined paths are used twice.
* **C141** What swoll top draws is what was counted — Model/Top over Model/Views: a table after any ticks is a fold over all metrics seen; its keys and the last metric of each by induction. Names with dots are cut at the first and last dot. Violated for the graphs, which draw all but the newest value.
* **C142** Events carry the numbers the process itself sees — Model/Task: the reads over tables of kernel structures. Spec/Task: threads, processes and namespaces with a history of acts, and how Linux keeps them. Invariant by induction on the history: the namespace at place k among those around another has level k; then the read by level finds the number by namespace.
* **C143** A call is attributed to the pid namespace its process lives in — the same model. Invariant: a thread that has not moved has its children where it lives. Violated by unshare and setns: the probe reads `pid_ns_for_children`.
* **C144** Reading the metrics while calls are counted — Model/Walk: buckets as lists, a schedule of stores between the two system calls of each round. By induction on the schedule: what is ahead of the walk, what it has passed. Violated for every pair of metrics that share a bucket: the probe stores whole elements, and the kernel puts them to the front of the bucket.
* **C145** Tracing and counting go on however much has happened — Model/Bounded: the handlers of Model/Probe, where a full table refuses a new key. By induction on the history: the calls remembered are calls that have not returned, so as long as there are no more than 65535 of them (and no more kinds of calls counted) nothing changes against Model/Probe. Refuted beyond that for every size of the table, with 65535 calls of exit_group as the witness.
* **C146** Events arrive in the order they happened — Model/Ring: any schedule of writes on any number of CPUs and steps of the reader. By induction: what is given, taken and in the ring of a CPU is a subsequence of what was written there, all of it when nothing is missed; the numbers add up; the reader alone comes to rest. Violated between CPUs: two calls of one thread that moves are shown in the other order, for any two CPUs; and while a CPU writes as fast as it is read nothing is handed over. Model/Daemon (C76) has one ring: its order is that of one CPU.
* **C147** The log shows the rules in force for what they are — Model/RuleText over Model/Filter: a line is read back comma by comma, so the text of rules for known calls is injective; C28 and the relation of C26 turn the listing into the user's view of the history, with a separate count for the metrics. Violated for a rule made from the options for all calls of a namespace: shown as one for `read`, and without effect.
* **C148** The server ends when it is told to, and answers what it has begun — Model/Shutdown: invariants over every history of clock ticks, requests, answers and signals. Proved for the interrupt; fails for SIGTERM and a failing hub, for an address that cannot be listened on, and for watchers, which are cut off.
* **C149** The log of a trace holds its events, one line each, and can be read back — Model/Log: no text of a line holds a control character, by induction on the document; a line read back is the client's event, whose document is the server's because sorting labels twice is sorting them once. Lines: proved for all events. Reading back: proved for events that are whole — numbers, well-formed text, buffers, flags that have names, types of sockets, options that have names, addresses that are not of IPv6 nor long paths of Unix sockets, of which 16 bytes are kept and the text is the same (Lemmas/LogCut) — in logs with other lines in between; an error unknown to Linux is told as unknown by both; fails for IPv6 addresses, long paths of Unix sockets, ill-formed text and flags without a name, which the client writes otherwise than the server, for lines of one byte, for messages without an event and for lines of 64 KiB.
* **C150** A trace resource is stored as it is written — Model/Admit: the schemas are data, pruning and validation are recursive functions on them; by induction on what a well-written trace is made of. Proved for the repository's manifests; fails for the Helm chart, which drops every sample rate, and for misspelt fields.
* **C151** A trace that cannot be understood does no harm to the others — Model/Admit with the model of durations (C129): the list is decoded as a whole, so the controller is told of the traces just if all can be decoded. Fails: a duration of "1 hour" passes the API server and hides all traces.
* **C152** Every trace that is accepted gets its job — Model/Names: the rules for names are total functions, shown equal to a grammar in Spec/Names; the job is accepted just if the name has at most 60 characters and no dot. For the other names an invariant over all runs of the controller (Model/Controller) shows that no job is ever made. Fails for these.
* **C153** The chart can be installed under every release name, also twice — Model/Chart with Model/Names: the templates are functions of release and values; the exact condition on names by the grammar of names, the one on two installations by comparing all objects. Fails for some names, and for two installations in one namespace.
* **C154** The parts of an installation find each other — Same model: selection is inclusion of labels, with one value for each key. Fails for upgrades, as versions are part of the immutable selectors, and for other target ports, composed with the controller's endpoints (Model/Startup).
* **C155** The programs have the rights they need and no others — Same model: the rules of the roles against the requests in the code, both ways, for all accounts and requests. Fails for events in other namespaces, the metrics proxy and shared accounts.
* **C156** The command line means what is written — Model/Argv: Spec/Argv lists the ways to write a flag or word and what is meant; by induction on what is written the parser gives that meaning, and refuses what has none. Composed with the arguments of the job (C72) and the chart. Fails for flags before the command.
* **C157** A program that asks the kernel for calls is shown them — Model/Examples: any interleaving of calls and callbacks. With the rules added and the filter switched on, a simulation by the tracer of C94 gives: each due call once, in order. Never switched on, an invariant gives: nothing, ever; the two examples are of that kind.
* **C158** A flag that a command accepts is a flag that it heeds — Model/FlagUse on top of Argv. What the parser finds is of the flags of the command and of their types (induction over the words), so no getter fails; for a flag outside of a small list in Spec/FlagUse the command learns what the line says, or the preset; for a flag in that list a line with it and the line without it are the same to the command.
* **C159** The dashboard shows every call of what was chosen, once — Model/Dashboard. Quoting a value and joining values with bars is undone by reading the text as a regular expression (induction over the text), so a matcher selects exactly what was chosen; grouping gives each key once with the sum of its series (induction over the series). That what the servers export meets the hypotheses is proved from `Collect` (C61) and the table of classes (C43).
* **C160** A container is known by the namespace its calls are reported under — Model/Runtime, composed with the processes of C142. The JSON of the runtime is read as C107 has it (`Says`), the cleaned path is the one of the names (induction over the parts), and the number in the file is the one that the kernel reads for an event (`pidNs_eq`) for every history of processes. `containers_eq` says the listing is the one of C22 and C122 unless it ends the program.
* **C161** Who watches a job is shown the calls of the processes in the pods it selects — no new model: C126 and C124 (the site) composed with C160 (the container and its number) and C142 (the processes). Namespaces stay and threads live where they lived (induction over the history), so a number that was read at a listing is the one of the calls later (`found_later`).

## 4. Where the code disagrees with the property

Each point is a proved theorem (`…_violated`, or the exact condition it fails under).

* **Filters and metrics** — RemoveMetrics never removes the rule AddMetrics wrote (C27). The metrics clock restarts for overlapping calls and error numbers of 255 or more are lost (C30). An entry under the all-zero key stops iteration (C31, C32). The probe counts by storing a new element, which the kernel puts to the front of its bucket: a read at the same time can miss a metric, report one twice or not end (C144). An enter without exit leaves a stale entry that a later exit uses (C33). A rule for all calls of a namespace, made with the options of `NewFilterRule`, keeps syscall number 0: the log shows it as a rule for `read`, and no key the probe looks up is its key, so it has no effect (C147).
* **Jobs** — AddSyscall after AddSampledSyscall overwrites the sample rate with 0 (C17). A stop notification removes a filter other jobs still need, ignores the host selector, and leaves the hub's contexts (C16). Sampling uses the difference of rates, so equal rates divide by zero (C14, C15); the counter is shared by pairs. A syscall name that is not known dereferences nil (C64). Duplicate starts or syscalls deliver an event twice (C12). Restarted hosts are lost from MonitoredHosts (C19).
* **PubSub** — A second unsubscribe panics or removes someone else's subscription (C05). The hub uses no routing hash (C03). Two valid pod names collide under CRC-64 (C07). An empty job id sees everything (C63). Combined paths are used up by the first event (C140).
* **Selectors** — Match expressions of a trace are ignored (C120). The pods that run traces for the controller lose the label `swoll=false` (C121). A pod that is deleted while an observer has lost the API server ends the server: the callback takes the tombstone of the informer for a pod (C123). A pod that is recreated meanwhile is not announced (C123). A pod that a job no longer selects is shown to its clients as soon as another job wants its calls (C124). A job whose pod loses a label takes away the kernel rule that other jobs still need for that pod, and their clients see no more of its calls (C126). `swoll trace app=nginx tier=web` ends: the words are joined by spaces, and a comma is expected (C127). Of `app=nginx,app=redis` only the last is looked at (C127).
* **Topology** — Stops are wrong for restarted, terminated or never steady pods, starts can double (C22).
* **Events** — Ingest panics for every syscall without decoder (C38); mprotect, nanosleep and negative sizes read outside the event (C37); 21 decoded fields are not the arguments and execve's argv is shifted (C36); pid and tid are swapped (C39); negative results print as large positive ones (C68); nine fields show data of earlier events (C67). Memory behind pointers is copied when the call returns, so another thread can replace the path that is reported (C118).
* **Names and JSON** — O_DSYNC reads back as O_SYNC, MS_NOUSER is a wide mask (C40, C41); 28 numbered syscalls have no class and cannot be looked up (C43); IPv6 ports are not swapped (C44); IPv6 socket options cannot be read back (C69, C70); socket addresses are cut to 16 bytes (C71); strings that are not UTF-8 change (C70).
* **Order of events** — `Run` sets no timestamp function, so gobpf hands over ring by ring: between CPUs the order is that of the CPUs' numbers, not of the calls, also for one thread that moved (C146). The reader leaves a ring only when it is empty: a CPU that writes as fast as it is read holds up all events, and what the reader keeps in memory grows without bound.
* **Sizes** — `exit` and `exit_group` do not return, so when they are traced each leaves an entry in `swoll_state_map` that nothing removes before its thread number is used again. After 65535 of them no call of any other thread is shown (C145). Numbers come back early only where `kernel.pid_max` is small; with 4194304, the default of systemd, they do not. The calls themselves are never shown. Likewise, after 65535 kinds of (namespace, call, error) no new kind is counted; nobody is told.
* **Who made a call** — The probe takes the pid namespace of the children of a thread for its own: after `unshare(CLONE_NEWPID)` a process of a container is no longer traced with it, and the event of that very call already carries the new namespace; after `setns` a process outside counts as one of the container. Where the namespace cannot be read, rules go by 4294967295 and events carry 0 (C143).
* **Top** — When a graph is full, its newest value is not drawn (C141).
* **Answers** — The label `application/json` is set after the headers have been sent, so no answer has it (C138). A request for a stream that is no handshake is answered with status 400, the text of the library and then the JSON of an error 500 (C138). The reason why a job is not deleted or a stream not opened is dropped by the client (C139).
* **The end of the server** — Only the interrupt is caught (cmd/server.go:927), not SIGTERM, which is what Kubernetes sends to end a pod and which the client commands do catch: requests at work are cut off (C148). The errors of `ListenAndServe` are dropped (server.go:895, 898): a server whose address is taken goes on and answers nothing (C148).
* **Logs** — `pretty_logs` looks at the second byte of a line that has one (hack/tools/pretty_logs.go:24) and at the event of a message that has none (line 33), and crashes on either; at a line of 64 KiB or more its scanner ends and the tool does not say so ; a call to open with O_PATH, for which pkg/types/fileflags.go:11-29 has no name, is sent with no flags and logged with O_RDONLY (`c149_flags_violated`); the line of an event with an IPv6 address, a Unix path of more than 14 bytes, or with text that is not UTF-8, is not what the server sent, since the client has 16 bytes of the address and writes U+FFFD as it is where the server wrote `\ufffd` (C149).
* **Resource definitions** — The definition in the Helm chart (chart/crds/crds.yaml) has no `sampleRate`, the one in config/crd/bases has (lines 114-115): the API server removes it from every trace without a word (C150). A duration is any text to the API server (crds.yaml:47-48), but one that Go cannot parse makes the list of all traces undecodable: one trace with the duration "1 hour" keeps the controller from every trace in the cluster (C151).
* **Names of traces** — A Trace may have any DNS subdomain of up to 253 characters as its name, but the container of its job is called `sw-<name>` (trace.go:58), which must be a DNS label: with a dot in the name, or more than 60 characters, the job is refused each time and the trace stays pending for ever (C152).
* **The chart** — Service names must begin with a letter, have no dot and at most 63 characters, which release names need not (C153). The role `swoll-leader-election-role` has the same name in every release (controller-role.yaml:5), so there is one installation per namespace at most (C153). The labels with the versions are part of `matchLabels` (_helpers.tpl:38-44), which cannot be changed: `helm upgrade` to any other version fails (C154). The controller assumes port 9095 whatever `targetPort` is (controller.go:94-107; C154). The controller may create events in its own namespace only, so `Created job` is lost for traces elsewhere (trace.go:183), and `kube-rbac-proxy` has no right to review tokens, which config/rbac/auth_proxy_role.yaml would give it (C155).
* **The command line** — A flag of a subcommand that is on or off takes the command's name for its value when written before it, so `swoll --use-tls client query running` is an unknown command; and when the value of a flag before the command is the command's name, the library takes out the value, so `swoll --altroot trace --log debug trace` traces with the root `--log` and no flag `--log` (C156).
* **The examples** — The filter drops everything until `Enable` is called (probe.c:1404-1407, filter.go:143-148). Neither examples/basic-trace nor examples/kubernetes-basic calls it, so both run for ever and show nothing; the error returns of `AddSyscall` are ignored. basic-trace asks for nothing besides `FilterSelf`, whose body is commented out, so `Enable` alone would not help it (C157). The comment in examples/kubernetes-hub that an empty job name is filled in is wrong: see C63.
* **Flags that do nothing** — `top` accepts `--bpf`, `--nsproxy-offset`, `--pidns-offset`, `--no-detect-offsets` and `--output` and looks at none of them: it always loads the built-in program and detects the offsets. `client query`, `delete` and `watch` accept `--output` and `--namespace`, and all of the client, the controller and the self-test accept the flags about the node. `--version` counts for the bare program only. Seven commands accept any words and take no notice of them, so `swoll top execve` shows every call (C158).
* **The dashboard** — eight panels compare `class="$class"`, and four of them `group="$group"`, though these variables may stand for several values; the text is then `A|B`, which is no class, and the panels are empty, as they are to begin with. Panel 29, "Syscall Totals", shows an average over containers and errors. The panels 51 and 29 name the class and the group in their titles and show the calls of all classes and groups (C159).
* **The runtime** — `rawpid.(float64)` in `getContainerPid` is not checked: a runtime that gives the process of one container as a text, or as null, ends the program, at every start. A container is known by the namespace its main process will have its children in (`pid_for_children`), not by the one it lives in: if that process has called `unshare(CLONE_NEWPID)` the container is not found until a child is born, and after that the calls of all its other processes belong to no container (C160).
* **Printing** — 20 printed arguments misreport and 17 are left out; the C types shown are not the prototype's for the arguments in `mistyped`, as `struck sockaddr *` in bind (C89). Strings are not quoted: a path can look like more arguments (C90) or, with a line end, like another event (C91). Modes lose the sticky and set-id bits (C90). Latencies are off by up to a microsecond after 104 days of uptime, and the thread's number is printed as the process's (C92). 68 system calls, openat2 and clone3 among them, are unknown (C93). `client watch` prints the structure of the arguments with `%s`: 42 of the 59 calls show complaints such as `%!s(int32=9)`, and data that a traced program writes reaches the watcher's terminal unquoted, escape sequences included (C125).
* **Host tracing** — A trace can be started for 274 names without a decoder and ends at the first such call (C95). `FilterSelf` is empty, so a trace of write feeds itself (C96).
* **Tracing containers** — `swoll trace` takes names it does not know and dies at the first container (C111), or at the first call if there is no decoder. `-s openat,openat` and a container announced twice show every call twice (C110). An unknown `--output` shows nothing (C111).
* **Start-up** — A missing object file ends the program and an empty one is replaced without notice; `top` ignores `--bpf` and the variables (C97, C98). Offsets given without `--no-detect-offsets` are ignored (C98). The self test takes any error but "no such file" for a mounted directory, overlooks lines after a long one and does not ask for CONFIG_BPF_SYSCALL (C99). A controller on two or more nodes makes jobs whose clients exit (C100). An unknown `--output` prints nothing (C101).
* **Client commands** — A failure in the middle leaves jobs behind (C102, C105). The goroutines of `--oneshot` share the loop's variable: all endpoints but the last keep the job, are not shown, and the last is shown repeatedly (C103, C104). A message over 4096 bytes silences an endpoint (C104). Without an id `delete` and `watch` panic (index out of range; not modelled). A second interrupt panics (C103, C106).
* **Streams** — The first deadline and the first ping are only a tenth of `pongWait` apart, so a client held up for 3 s while a ping is due loses its stream (C108); `client watch` then shows nothing further and does not end.
* **Alerts** — A pushed alert that its owner modifies loses its delete callback (C46).
* **Controller** — A stale read creates another job (C47); conflict, fault or stale read duplicate jobs (C48); deleting a pending trace creates an orphan, a trace whose job is gone is stuck (C49); the start time is rounded, so completion may be early (C50). Several hosts arrive as one name, several endpoints make the client exit, duration and rate are not passed (C72).
* **Offsets** — Success is reported when a search finds nothing; a missing lock symbol matches every line; the sign of a lea is lost (C52); wide values are cut (C51); a malformed line crashes (C53).
* **Server and client** — Two overlapping creates of one id both succeed (C54); a reused id or overlapping deletes lose a job (C55); ReadTrace never connects, IPv6 hosts are not bracketed (C56); deleting "." or "a/" is reported as success (C74); DELETE can answer 500 although the job has left the list (C117).
* **Rules** — A rule for a process, for a namespace (not for counting), or for both, and a rule that is to count the calls of `read`, are accepted and never looked up (C131).
* **Messages** — A client reads messages of at most 4096 bytes. An mprotect of 3072 bytes or more carries as many bytes of the daemon's memory in base64 and ends the stream of every client that watches it, as does an execve whose path and arguments are 128 control characters each (C132). What mprotect and nanosleep send is the daemon's memory and addresses, not the event (C133).
* **Clients** — A message that is an object without a system call, such as `{}`, makes the client dereference a nil pointer; after `null` it prints a missing event, which does the same (C135).
* **Bodies** — A create request whose body is `null` or whose fields are all misspelt starts a job for every call of every pod of the namespace, and whatever follows the first JSON value is ignored (C130).
* **Views** — An unlisted syscall panics the prometheus and sankey handlers (C59, C61); float32 weights stop at 2^24 (C59); word clouds accumulate (C60); unnamed errors make duplicate series (C61); rows are shared in top (C73).
* **Daemon** — A call that ends after its container's stop was noticed is still counted and the count stays (C75); asking for a syscall without decoder, such as getpid, ends the daemon at the first such call (C78).
* **Service** — The goroutine of a deleted job registers the job again at the next container it selects; the job is then in no list and cannot be deleted (C82). A job that has matched no container cannot be deleted, DELETE answers 500 (C83). A websocket that watches a path is never unsubscribed (C84). A DELETE between registration and rule leaves the rule in the kernel for ever (C85). A request for an unknown syscall is accepted and ends the server at the next container (C86). The duration of a request is ignored (C88).
* **Goroutines** — `monitoredHosts` and `Status` of a job, the word clouds and a websocket's writing side are touched by several goroutines without a lock, and a sampled job reads the hub's tables without it (C79). `aggWidget.update` takes `mu` for reading and calls `makeSortable`, which takes it again; a writer in between stops both (C80). Subscribers and alert callbacks are called with the lock they would need to unsubscribe or to raise an alert (C80). Events are written to clients with the locks of the hub and the subscriptions, the list of jobs with those of the job lists (C81).
* **Lifecycle** — A failed option, tracepoint or callback leaks what was acquired; Close does not end Run and panics on a zero probe (C62).
* **Several CPUs** — the handlers copy a metrics entry, change the copy and write it back, without a lock or an atomic: calls that return on n CPUs at once are counted as one, a call that is entered can set the count back by what others counted meanwhile, and an entry deleted for a namespace that is gone comes back (C113). The sample counter is read and written the same way: of calls made at once all may pass or none (C114).
