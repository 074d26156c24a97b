{"id": "C01", "title": "A publish reaches exactly the prefix subscribers, once each", "statement": "After any history of Subscribe and unsubscribe calls, publishing on a linear path invokes every still-active unsharded subscriber whose subscription path is a prefix of the published path exactly once, and invokes no other unsharded subscriber.", "quantifier": "every finite history of subscribe/unsubscribe calls with arbitrary paths and arbitrary ids drawn by the random source, every published path", "why_tests_cant": "the tree shape depends on the whole history; tests try a few trees", "anchors": ["internal/pkg/pubsub/pubsub.go: Subscribe, cleanupSubscriptionTree, traversePublish, LinearTreeTraverser", "internal/pkg/node/node.go: AddChild, AddSubscription, DeleteSubscription, ForEachSubscription"]}
{"id": "C02", "title": "A shard group receives each publish once", "statement": "For every node on the published path and every named shard group with members at that node, exactly one member of that group is invoked per publish, whatever the random source returns.", "quantifier": "every subscription tree reachable by a history, every published path, every sequence of random choices", "why_tests_cant": "depends on random choices and on the sorted order of members", "anchors": ["internal/pkg/pubsub/pubsub.go: traversePublish, determineIdx", "internal/pkg/node/node.go: AddSubscription"]}
{"id": "C03", "title": "Deterministic routing is a function of the routing key and the members", "statement": "If at least one member of a shard group has a deterministic routing name, the member chosen depends only on the publish's deterministic key and the group's sorted member list, never on the random source; two publishes with the same key and unchanged membership reach the same member.", "quantifier": "every group, key and random sequence", "why_tests_cant": "a test cannot range over random draws", "anchors": ["internal/pkg/pubsub/pubsub.go: determineIdx", "internal/pkg/node/node.go: Less"]}
{"id": "C04", "title": "Unsubscribing removes one subscription and prunes the tree", "statement": "Calling the unsubscriber of an active subscription removes exactly that subscription; afterwards no node other than the root is left with neither a subscription nor a child; after all subscriptions are removed the tree is empty again.", "quantifier": "every history of subscribes and single unsubscribes", "why_tests_cant": "leaks only show after specific orderings of removals of overlapping paths", "anchors": ["internal/pkg/pubsub/pubsub.go: Subscribe, cleanupSubscriptionTree", "internal/pkg/node/node.go: DeleteSubscription, DeleteChild"]}
{"id": "C05", "title": "Calling an unsubscriber twice is harmless", "statement": "A second call of the same unsubscriber has no effect and does not crash.", "quantifier": "every history, any later repetition of an unsubscribe", "why_tests_cant": "whether it crashes depends on what else was subscribed below the same path", "anchors": ["internal/pkg/pubsub/pubsub.go: cleanupSubscriptionTree", "internal/pkg/node/node.go: ChildLen, createAndSetID"]}
{"id": "C06", "title": "Path hashing preserves the hierarchy", "statement": "For component lists without empty strings the hash path of a list is a prefix of the hash path of every extension of it, has one entry per component plus one for the root, and never contains 0 (which the tree traversal reserves for stop); an empty component truncates the path, so attaching with it subscribes to every longer path.", "quantifier": "every list of strings", "why_tests_cant": "infinite input space", "anchors": ["pkg/topology/hash.go: hash, hashPath", "pkg/topology/hub.go: AttachPath, AttachTrace, WriteEvent", "internal/pkg/pubsub/pubsub.go: LinearTreeTraverser"]}
{"id": "C07", "title": "AttachPath sees exactly the requested sub-hierarchy", "statement": "A callback attached with AttachPath(ns, pod, container, syscall prefix) is invoked for an event exactly when the hashed event path (namespace, pod, container, syscall) extends the attached path; provided the hashes of the components involved are collision free this is equality of the named components.", "quantifier": "every attached component list and every event", "why_tests_cant": "needs all pairs of paths", "anchors": ["pkg/topology/hub.go: AttachPath, WriteEvent", "pkg/topology/hash.go: hashPath"]}
{"id": "C08", "title": "Hub job indexes always mirror each other", "statement": "After any sequence of PushJob and DeleteTrace calls, the contexts found by job id and the contexts found by (pid namespace, syscall) are the same set; no empty per-job, per-namespace or per-syscall container is retained after deletion.", "quantifier": "every sequence of PushJob/DeleteTrace with arbitrary jobs, namespaces and syscall numbers", "why_tests_cant": "the two indexes are updated separately with list elements; only an invariant over all histories settles it", "anchors": ["pkg/topology/hub.go: PushJob, DeleteTrace, findJobList, clearJobList"]}
{"id": "C09", "title": "DeleteTrace never reaches its fatal exit and reports unknown jobs", "statement": "DeleteTrace returns an error exactly when the job has no contexts, leaves the hub unchanged in that case, and never terminates the process with its 'still elements' fatal path.", "quantifier": "every reachable hub state and every job id", "why_tests_cant": "the fatal path depends on index corruption, unreachable in tests unless all histories are considered", "anchors": ["pkg/topology/hub.go: DeleteTrace"]}
{"id": "C10", "title": "DeleteTrace removes only the deleted job, reference counting shared kernel filters", "statement": "Deleting a job removes all of its contexts and no other job's contexts, and removes the kernel filter of a (namespace, syscall) pair exactly when no other job still has a context for that pair.", "quantifier": "every reachable hub state, every job", "why_tests_cant": "sharing patterns between jobs are unbounded", "anchors": ["pkg/topology/hub.go: DeleteTrace", "pkg/topology/job.go: JobContext", "pkg/kernel/filter.go: RemoveSyscall"]}
{"id": "C11", "title": "Events are routed to exactly the jobs registered for their namespace and syscall", "statement": "A kernel event with pid namespace ns and syscall nr whose container is known is handed to each job once per context the job registered for (ns, nr) and to no other job, and, when at least one job is registered for that pair, is also published once on its namespace path; when the container is unknown nothing is delivered.", "quantifier": "every hub state, every event", "why_tests_cant": "ranges over all registrations", "anchors": ["pkg/topology/hub.go: Run, WriteEvent, findJobList"]}
{"id": "C12", "title": "A job receives an event at most once", "statement": "For every event, a job's subscribers are notified at most once.", "quantifier": "every history of container starts, stops and job runs", "why_tests_cant": "duplicated start notifications only occur in particular pod phase sequences", "anchors": ["pkg/topology/hub.go: PushJob, Run", "pkg/topology/job.go: Run"]}
{"id": "C13", "title": "The reported lowest-sample job is a true minimum", "statement": "findLowestSampleJob returns nothing exactly when no job is registered for the pair, and otherwise a registered context whose sample rate is minimal among all registered for that pair, the earliest such on ties.", "quantifier": "every list of registered contexts", "why_tests_cant": "unbounded lists with arbitrary rates", "anchors": ["pkg/topology/hub.go: findLowestSampleJob"]}
{"id": "C14", "title": "Each job sampled at rate r receives every r-th event of its pair", "statement": "When several jobs sample the same (namespace, syscall) at different rates, a job with rate r is sent 1 of every r events that occur (r=1: all), as the comment on WriteEvent promises.", "quantifier": "every set of rates, every event sequence", "why_tests_cant": "divisibility and counter phase over unbounded sequences", "anchors": ["pkg/topology/job.go: WriteEvent, Run", "pkg/topology/hub.go: findLowestSampleJob", "internal/bpf/probe.c: swoll__run_nfilter"]}
{"id": "C15", "title": "Event delivery never crashes", "statement": "Handing an event to any set of registered jobs never panics.", "quantifier": "every set of jobs registered for a pair, every event", "why_tests_cant": "crash needs two different jobs with the same positive rate", "anchors": ["pkg/topology/job.go: WriteEvent"]}
{"id": "C16", "title": "A started container is observed for every syscall of every job selecting it", "statement": "Once a job has processed the start of a matching container and until that container stops or the job is deleted, the kernel filter allows every syscall in the job's specification for the container's pid namespace.", "quantifier": "every interleaving of starts, stops and deletions of several jobs", "why_tests_cant": "needs interleavings of several jobs sharing containers", "anchors": ["pkg/topology/job.go: Run", "pkg/topology/hub.go: DeleteTrace", "pkg/kernel/filter.go: AddSyscall, AddSampledSyscall, RemoveSyscall"]}
{"id": "C17", "title": "Sampling requested by a job takes effect in the kernel", "statement": "After a job with sample rate r>0 processes a container start, the kernel filter for the pair carries sample rate r unless a lower rate is required by another job.", "quantifier": "every hub and filter state", "why_tests_cant": "the final map value depends on the order of two writes", "anchors": ["pkg/topology/job.go: Run", "pkg/kernel/filter.go: AddSampledSyscall, AddSyscall"]}
{"id": "C18", "title": "Host selectors restrict a job to named containers", "statement": "A job with a non-empty host selector registers contexts and filters only for containers whose name is listed; an empty selector accepts all.", "quantifier": "every selector and container", "why_tests_cant": "unbounded strings and lists", "anchors": ["pkg/topology/job.go: Run"]}
{"id": "C19", "title": "MonitoredHosts reflects the containers currently and ever matched", "statement": "MonitoredHosts(true) lists exactly the hosts that ever matched; MonitoredHosts(false) exactly those whose last notification was a start.", "quantifier": "every sequence of AddContainer/RemoveContainer, every pod and container name", "why_tests_cant": "re-adding after removal and name concatenation collisions need specific histories", "anchors": ["pkg/topology/job.go: AddContainer, RemoveContainer, MonitoredHosts, createJobKey"]}
{"id": "C20", "title": "The container cache resolves a pid namespace to the last started container", "statement": "After any sequence of topology events, LookupContainer(ns) returns the container of the latest valid start for ns if it has not been followed by a stop for ns, and an error otherwise; invalid events change nothing and are reported with the matching error.", "quantifier": "every sequence of observer events", "why_tests_cant": "history property", "anchors": ["pkg/topology/topology.go: processEvent, LookupContainer"]}
{"id": "C21", "title": "Topology callbacks fire exactly for valid events, after the cache update", "statement": "The user callback is invoked once for each event with a container, a positive pid namespace and a known type, with that container, and never otherwise.", "quantifier": "every sequence of observer events", "why_tests_cant": "history property", "anchors": ["pkg/topology/topology.go: processEvent, Run"]}
{"id": "C22", "title": "The Kubernetes observer starts a pod's containers once per phase change and stops them on deletion", "statement": "For every sequence of informer notifications, a start is emitted for each container of a pod added to the informer or updated into Running, and a stop for each container when a pod terminates or is deleted; repeated updates in an unchanged phase emit nothing.", "quantifier": "every sequence of add/update/delete notifications", "why_tests_cant": "history property over informer schedules", "anchors": ["pkg/topology/kubernetes.go: Run"]}
{"id": "C23", "title": "Adding then removing a syscall filter restores the filter", "statement": "For every syscall accepted by Lookup and every namespace, RemoveSyscall after AddSyscall or AddSampledSyscall deletes exactly the entry that was written; filters for every other key are untouched by either operation.", "quantifier": "every filter content, syscall and namespace argument", "why_tests_cant": "keys are packed from several fields with truncation", "anchors": ["pkg/kernel/filter.go: AddSyscall, AddSampledSyscall, RemoveSyscall, NewFilterRule"]}
{"id": "C24", "title": "The kernel filter decision is first match over five precedence levels, default drop", "statement": "A syscall by a thread is allowed iff filtering is enabled and the most specific applicable enabled rule (namespace-wide, then namespace+process+syscall, namespace+syscall, process+syscall, syscall) has action allow and is not sampled out; with no rule the call is dropped.", "quantifier": "every filter and config map content, every (namespace, process, syscall)", "why_tests_cant": "all map contents", "anchors": ["internal/bpf/probe.c: swoll__run_nfilter, swoll__is_filter_enabled"]}
{"id": "C25", "title": "Kernel sampling passes the first event and then every r-th", "statement": "For a rule with sample rate r>0, of the events hitting it (counted from 1) exactly event 1 and the multiples of r pass; with rate 0 all pass; hit counters equal the number of evaluations.", "quantifier": "every rate, every number of events (until counter wrap)", "why_tests_cant": "unbounded sequence", "anchors": ["internal/bpf/probe.c: swoll__run_nfilter"]}
{"id": "C26", "title": "User-space rules have the intended kernel effect", "statement": "After AddSyscall(sc, ns) on an enabled filter, events of sc in ns are allowed, and after RemoveSyscall they are again decided as if never added; adding for one pair never changes the decision of events in other namespaces or for other syscalls.", "quantifier": "every prior filter state, every syscall, namespace and event", "why_tests_cant": "composition of two programs (Go writer, BPF reader) over all states", "anchors": ["pkg/kernel/filter.go: AddRule, DelRule", "internal/bpf/probe.c: swoll__run_nfilter"]}
{"id": "C27", "title": "Removing metrics for a namespace stops metrics collection for it", "statement": "RemoveMetrics(ns) undoes AddMetrics(ns): afterwards no metrics are recorded for ns.", "quantifier": "every filter state and namespace", "why_tests_cant": "key normalisation on one side only", "anchors": ["pkg/kernel/filter.go: AddMetrics, RemoveMetrics, AddRule, DelRule"]}
{"id": "C28", "title": "Listing running rules returns each installed rule exactly once", "statement": "GetRunning returns every entry of the kernel filter map exactly once.", "quantifier": "every map content and kernel iteration order", "why_tests_cant": "all map contents and hash orders", "anchors": ["pkg/kernel/filter.go: GetRunning"]}
{"id": "C29", "title": "Metrics count every completed call in its error bucket", "statement": "For every history of syscall exits in monitored namespaces, the count of bucket (namespace, syscall, errno) equals the number of exits with that errno (errors of 255 and above and success share bucket 0), and last_seen/first_seen bracket them.", "quantifier": "every sequence of enter/exit events over any number of threads", "why_tests_cant": "history property", "anchors": ["internal/bpf/probe.c: swoll__fill_metrics, swoll__update_metrics, swoll__update_metrics_ktime"]}
{"id": "C30", "title": "Metrics time is the sum of call durations", "statement": "The time of a success bucket equals the sum of exit minus enter timestamps of the calls counted.", "quantifier": "every interleaving of enters and exits", "why_tests_cant": "interleaving of threads sharing one bucket", "anchors": ["internal/bpf/probe.c: swoll__update_metrics, swoll__update_metrics_ktime"]}
{"id": "C31", "title": "Pruning a namespace deletes exactly its metrics", "statement": "PruneNamespace(ns) deletes every metric whose pid namespace is ns, no other, and reports how many it deleted.", "quantifier": "every map content and iteration order", "why_tests_cant": "deleting during iteration over unbounded maps", "anchors": ["pkg/kernel/metrics/handler.go: PruneNamespace", "pkg/kernel/metrics/metrics.go"]}
{"id": "C32", "title": "QueryAll returns every metric once", "statement": "QueryAll returns each entry of the metrics map exactly once with its value.", "quantifier": "every map content and kernel iteration order", "why_tests_cant": "all contents", "anchors": ["pkg/kernel/metrics/handler.go: QueryAll"]}
{"id": "C33", "title": "Enter and exit tracepoints are paired per thread", "statement": "Every emitted (non-execve) event corresponds to an exit of a thread whose most recent enter passed the filter with the same syscall number, carries the enter's timestamp, user and arguments, and each enter produces at most one event.", "quantifier": "every interleaving of enter/exit tracepoint firings over any number of threads", "why_tests_cant": "schedules", "anchors": ["internal/bpf/probe.c: swoll__enter, swoll__exit"]}
{"id": "C34", "title": "Raw event decoding is faithful", "statement": "Ingesting the bytes the probe writes for an event yields the same field values; any buffer of at least 736 bytes is accepted with the trailing bytes ignored, any shorter one is rejected.", "quantifier": "every byte buffer and every event", "why_tests_cant": "all buffers", "anchors": ["pkg/event/raw.go: IngestBytes", "internal/bpf/probe.c: struct swoll_event"]}
{"id": "C35", "title": "C strings and integers decode to their memory meaning", "statement": "MakeCString returns the bytes before the first NUL, at most the given length; the fixed-width readers return the little-endian (two's complement) value written by the probe.", "quantifier": "every byte buffer", "why_tests_cant": "all buffers", "anchors": ["pkg/types/c.go: MakeCString, MakeCU64, MakeC64, MakeCU32, MakeC32", "pkg/event/raw.go: Commstr"]}
{"id": "C36", "title": "Decoded arguments equal the arguments the probe captured", "statement": "For every decodable syscall, each decoded argument equals the value the program passed (truncated to the argument slot), i.e. the Go decoder reads the slot and width the probe wrote.", "quantifier": "every syscall in the decode table, every argument value", "why_tests_cant": "two programs in two languages must agree on slots and widths for all values", "anchors": ["internal/bpf/probe.c: SWOLL_CALL_DEF fillers", "pkg/event/call: DecodeArguments"]}
{"id": "C37", "title": "Argument decoding never reads outside the event", "statement": "Decoding the arguments of any event exposes in its result only bytes of that event, not other memory of the agent.", "quantifier": "every event content", "why_tests_cant": "adversarial lengths", "anchors": ["pkg/event/call/mprotect.go", "pkg/event/call/read.go", "pkg/event/call/write.go", "pkg/event/call/readlink.go"]}
{"id": "C38", "title": "Ingesting any well-sized kernel event never crashes", "statement": "TraceEvent.Ingest returns an event or an error for every input, never panicking.", "quantifier": "every byte buffer", "why_tests_cant": "all syscall numbers and argument contents", "anchors": ["pkg/event/trace.go: Ingest", "pkg/event/call/syscall.go: DecodeSyscall"]}
{"id": "C39", "title": "Ingest copies header fields faithfully", "statement": "The trace event's pid, tid, uid, gid, session, namespaces, timestamps, return value, errno and command equal those of the kernel event.", "quantifier": "every event", "why_tests_cant": "integer conversions over full ranges", "anchors": ["pkg/event/trace.go: Ingest", "pkg/event/raw.go: Commstr"]}
{"id": "C40", "title": "Flag sets survive JSON", "statement": "Marshalling then unmarshalling file, message, timer, umount, accept, inotify and mount flags into a new variable returns the same named bits.", "quantifier": "every flag value", "why_tests_cant": "2^k values", "anchors": ["pkg/types/fileflags.go", "pkg/types/msgflags.go", "pkg/types/clocktypes.go", "pkg/types/umountflags.go", "pkg/event/call/accept.go", "pkg/event/call/inotify_add_watch.go", "pkg/event/call/mount.go"]}
{"id": "C41", "title": "Flag parsing names exactly the set bits", "statement": "Parse lists a flag's name iff that flag is set (all of its bits are), each name at most once, independent of map iteration order up to permutation.", "quantifier": "every flag value, every map iteration order", "why_tests_cant": "all values and orders", "anchors": ["pkg/types/*.go: Parse"]}
{"id": "C42", "title": "Error numbers and names correspond", "statement": "Every known errno converts to its name and back to itself; unknown numbers print as UNK and cannot be recovered.", "quantifier": "every integer", "why_tests_cant": "infinite domain", "anchors": ["pkg/types/errno.go"]}
{"id": "C43", "title": "Syscall lookup is consistent by name and number", "statement": "Looking up a syscall by number, by full name, or by name without the sys_ prefix yields the same syscall; every table entry is reachable by its number and name; unknown keys give nothing.", "quantifier": "every string and integer key", "why_tests_cant": "infinite domain plus whole-table consistency", "anchors": ["pkg/syscalls/syscalls.go: Lookup", "pkg/syscalls/consts.go"]}
{"id": "C44", "title": "Socket addresses print the port in host order", "statement": "For IPv4 and IPv6 sockets the printed port equals the port passed in network byte order.", "quantifier": "every address and port", "why_tests_cant": "2^16 ports, two families", "anchors": ["pkg/types/sockaddr.go: parseSockAddr, ntohs"]}
{"id": "C45", "title": "The alert queue is the set of firing (source, syscall) pairs", "statement": "After any sequence of pushes (of alerts the caller does not modify once pushed), an entry is queued iff the last effective push for its (source, syscall) was firing; no source is kept without entries.", "quantifier": "every push sequence", "why_tests_cant": "history property", "anchors": ["internal/pkg/alert/queue.go: Push"]}
{"id": "C46", "title": "Alert callbacks announce exactly the transitions", "statement": "A new-source callback fires exactly when the first entry of a source appears, an add callback exactly when an entry appears, a delete-entry callback exactly when one disappears, and a delete-source callback exactly when its last entry disappears, in a balanced order.", "quantifier": "every push sequence", "why_tests_cant": "history property", "anchors": ["internal/pkg/alert/queue.go: Push"]}
{"id": "C47", "title": "The trace controller moves states forward only", "statement": "For every sequence of reconciles the trace state only moves Unknown, Pending, Running, Complete, and a completed trace is never restarted.", "quantifier": "every sequence of reconciles with arbitrary API failures and clock readings", "why_tests_cant": "failure points and schedules", "anchors": ["internal/pkg/controller/trace.go: Reconcile", "api/v1alpha1/trace_types.go"]}
{"id": "C48", "title": "A trace creates at most one job on the server", "statement": "Over any sequence of reconciles, including failing status updates, at most one job is created per trace.", "quantifier": "every sequence of reconciles and API failure points", "why_tests_cant": "crash points between job creation and status update", "anchors": ["internal/pkg/controller/trace.go: Reconcile, createJobResource"]}
{"id": "C49", "title": "Deleting a trace deletes its job", "statement": "When a trace with a job is deleted, its job is deleted on the server before the finalizer is released, and no new job is created afterwards.", "quantifier": "every reconcile of a deleted object in every state, with failures", "why_tests_cant": "failure points", "anchors": ["internal/pkg/controller/trace.go: Reconcile"]}
{"id": "C50", "title": "A running trace completes once its duration has elapsed", "statement": "A running trace with a positive duration is requeued until start+duration and then marked complete; without duration it runs until deleted.", "quantifier": "every duration and clock reading", "why_tests_cant": "time arithmetic over all values", "anchors": ["internal/pkg/controller/trace.go: Reconcile"]}
{"id": "C51", "title": "Kernel offsets are stored as given", "statement": "Setting an offset by a known name stores exactly that value and touches no other; unknown names are rejected.", "quantifier": "every name and value", "why_tests_cant": "integer conversions", "anchors": ["pkg/kernel/offsets.go: Set"]}
{"id": "C52", "title": "Offset detection reports success only when both offsets were set", "statement": "DetectAndSetOffsets returns no error only if both structure offsets were found and written.", "quantifier": "every kernel memory content", "why_tests_cant": "memory contents", "anchors": ["pkg/kernel/offset_helper.go: DetectAndSetOffsets, nsproxyOffsetSearch, maxCandidates"]}
{"id": "C53", "title": "Kernel symbol search returns a listed address", "statement": "Looking up a symbol returns the address of a matching line of the symbol list, or none; it never fails on malformed lines.", "quantifier": "every symbol file content", "why_tests_cant": "all file contents", "anchors": ["pkg/kernel/offset_helper.go: parseKernelSyms"]}
{"id": "C54", "title": "Job ids are unique among running jobs", "statement": "The server never has two running jobs with the same id, and a create request for an id already running is refused.", "quantifier": "every interleaving of concurrent create and delete requests", "why_tests_cant": "races", "anchors": ["cmd/server.go: liveJobs, createJobHandler, deleteJob"]}
{"id": "C55", "title": "A created job is listed until deleted, then listed as completed", "statement": "Every successfully created job is in the running list until its successful deletion and in the completed list afterwards.", "quantifier": "every request sequence", "why_tests_cant": "history property", "anchors": ["cmd/server.go: createJobHandler, deleteJob, deleteJobHandler, liveJobs"]}
{"id": "C56", "title": "Client endpoint URLs are well formed", "statement": "The URL of an endpoint is scheme://host:port/path with ws/wss/http/https chosen by TLS and stream use, and every client call addresses such a URL.", "quantifier": "every endpoint and path", "why_tests_cant": "all strings", "anchors": ["pkg/client/endpoint.go: URL, ReadTrace, ReadTraceJob"]}
{"id": "C57", "title": "Rate windows hold the most recent samples", "statement": "A fixed-size rate window contains at most its capacity of samples, and they are the most recent ones in order.", "quantifier": "every push sequence and capacity", "why_tests_cant": "history property", "anchors": ["cmd/top.go: fixedRateArray"]}
{"id": "C58", "title": "Aggregated statistics preserve totals", "statement": "Merging statistics by any selection of keys preserves the total count and has exactly one row per distinct selected key, each the sum of the rows it stands for (totals up to 2^53, the whole numbers a float64 holds).", "quantifier": "every list of rows and every key selection", "why_tests_cant": "all inputs", "anchors": ["cmd/top.go: mergeStatsByKey"]}
{"id": "C59", "title": "Sankey links conserve counts", "statement": "For the sankey view, the weight on each consecutive pair of levels sums to the total of all resolvable metrics.", "quantifier": "every metric list, container mapping and level order", "why_tests_cant": "all inputs", "anchors": ["cmd/server.go: sankey handlers, addLink, parseOrder"]}
{"id": "C60", "title": "Word cloud counts equal the current metrics", "statement": "Each word cloud page shows, for each word, the current sum of counts of the matching metrics.", "quantifier": "every sequence of page loads and metric changes", "why_tests_cant": "history property", "anchors": ["cmd/server.go: wordClouds"]}
{"id": "C61", "title": "Prometheus collection exports each metric of a known container exactly once", "statement": "Collect emits for each stored metric whose namespace resolves to a container exactly one series sample carrying its count and labels, and never crashes.", "quantifier": "every metric map content and container mapping", "why_tests_cant": "all contents", "anchors": ["cmd/prometheus.go: Collect"]}
{"id": "C62", "title": "Probe lifecycle releases what it acquired", "statement": "Close after any prefix of initialisation steps releases the module and is safe to call; Run before InitProbe fails without side effects.", "quantifier": "every order of lifecycle calls", "why_tests_cant": "call orders", "anchors": ["pkg/kernel/probe.go: NewProbe, InitProbe, InitTracepoints, Run, Close"]}
{"id": "C63", "title": "AttachTrace sees exactly the events of its job", "statement": "A callback attached to a trace with job id j is invoked for an event exactly when the event is published for the job with id j, never for another job's events nor for events of the namespace stream.", "quantifier": "every job id, every event, every history of attachments", "why_tests_cant": "all ids and histories; depends on hashing and prefix matching", "anchors": ["pkg/topology/hub.go: AttachTrace, AttachPath, WriteEvent", "pkg/topology/hash.go: hashPath", "pkg/topology/job.go: JobContext.WriteEvent"]}
{"id": "C64", "title": "Starting a job never crashes the daemon", "statement": "Whatever syscall names a trace specification contains, the callbacks that handle container start and stop notifications for the job never crash the process; unknown names are reported or skipped.", "quantifier": "every specification, every container notification, every reachable hub state, every kernel refusal", "why_tests_cant": "Syscall names come from users; unit tests use the few names that exist.", "anchors": ["pkg/topology/job.go: Job.Run", "pkg/syscalls/syscalls.go: Lookup"]}
{"id": "C65", "title": "A job's observer watches the job's namespace and selectors only", "statement": "The observer derived for a job uses the job's Kubernetes namespace, label selector and field selector, keeps every other setting of the parent observer, and neither shares connections with it nor changes it; with several options for a setting the last wins.", "quantifier": "every parent configuration, every option list, every job namespace and selectors", "why_tests_cant": "Options compose arbitrarily; tests check one combination.", "anchors": ["pkg/topology/kubernetes.go: Kubernetes.Copy, WithKubernetes*", "pkg/topology/job.go: Job.Run"]}
{"id": "C66", "title": "Alert payloads are parsed entry by entry", "statement": "Parsing an alert-manager payload yields one alert per entry in order, each with the entry's own fingerprint, URL, labels and status; statuses other than firing and resolved are unknown and missing labels are empty.", "quantifier": "every decoded payload", "why_tests_cant": "Payloads are produced by an external system with arbitrary labels and statuses.", "anchors": ["internal/pkg/alert/prometheus.go: parseStatus, parseSingleAlert, ParseAlerts"]}
{"id": "C67", "title": "No event shows data of an earlier one", "statement": "The decoded form of an event depends only on the system call it reports and the task that made it, never on what earlier events left in the shared per-CPU buffer.", "quantifier": "every system call, task and earlier buffer content", "why_tests_cant": "leaks depend on the previous event on the same CPU and on which bytes a decoder reads", "anchors": ["internal/bpf/probe.c: swoll__event_fill_init, swoll__exit, SWOLL_EVENT_SZ", "pkg/event/call: DecodeArguments"]}
{"id": "C68", "title": "Return value and error reflect the system call's result", "statement": "A decoded event's return value is the system call's return value, and its error is the error number the system call failed with, or none if it succeeded.", "quantifier": "every decodable system call and 64-bit result", "why_tests_cant": "the result passes through 32-bit signed and unsigned conversions in two programs", "anchors": ["internal/bpf/probe.c: SWOLL_COMMON_LTZERO_ERROR, SWOLL_COMMON_NULL_ERROR, SWOLL_CALL_INIT", "pkg/event/trace.go: Ingest"]}
{"id": "C69", "title": "Named constants survive JSON", "statement": "Marshalling then unmarshalling a socket family, protocol, option level, option name, socket type or resource limit gives the same value, named or not.", "quantifier": "every integer value, every map iteration order in which the reverse tables are built", "why_tests_cant": "unbounded values; the reverse tables are filled in random order", "anchors": ["pkg/event/call/socket.go", "pkg/event/call/sockopt.go", "pkg/event/call/prlimit64.go"]}
{"id": "C70", "title": "A client can read back every event the server writes", "statement": "Decoding the JSON of an event gives an event of the same system call with the same identity, times, result and arguments, and never fails or panics.", "quantifier": "every event the decoder can produce: all system calls, all argument bytes", "why_tests_cant": "two 60-way switches and per-type JSON methods must agree on all values of all arguments", "anchors": ["pkg/event/trace.go: TraceEvent.UnmarshalJSON", "pkg/event/call/syscall.go: DecodeSyscall", "pkg/event/call/*.go: MarshalJSON, UnmarshalJSON"]}
{"id": "C71", "title": "Socket addresses survive JSON", "statement": "A socket address printed after its JSON has been read back shows the same address and port.", "quantifier": "every address of every family", "why_tests_cant": "all address bytes; the object read back is shorter than the one written", "anchors": ["pkg/types/sockaddr.go: SockAddr.MarshalJSON, parseSockAddr"]}
{"id": "C72", "title": "A trace resource reaches the probes as it is written", "statement": "When the controller starts a job for a Trace resource, the job asks every configured endpoint for a trace in the resource's namespace with exactly the labels, fields, hosts, system calls, duration and sample rate of the resource.", "quantifier": "every trace specification (any labels, fields, hosts, system calls), every list of endpoints, every job id", "why_tests_cant": "The arguments pass through quoting, CSV splitting, label set printing and parsing; whether they survive depends on the number of hosts and endpoints and on the characters in them, an unbounded set.", "anchors": ["internal/pkg/controller/trace.go:createJobResource", "cmd/client.go:cmdClientCreate", "cmd/client.go:parseStaticEndpointsArg", "cmd/controller.go"]}
{"id": "C73", "title": "The top table shows the current counts and their changes", "statement": "After every tick the table of `swoll top` shows for each container, syscall and error the current count of its metric, and the two graphs show the number of successful and of failed calls since the previous tick.", "quantifier": "every sequence of ticks with any metrics and container mappings", "why_tests_cant": "history property over all metric sequences", "anchors": ["cmd/top.go: cmdTop, lookupOrCreate, mkaggMetricKey"]}
{"id": "C74", "title": "Every client call reaches the handler of the job or namespace it names", "statement": "A job created, streamed, listed or deleted through a client endpoint is the one with the namespace and id given, whatever bytes those are made of: the request reaches the server's handler for it with exactly that name, no other job is deleted, and a call reports success only if that handler did.", "quantifier": "every endpoint, namespace and job id, and everything the handlers may answer", "why_tests_cant": "names are arbitrary strings, escaped by the client, cleaned and routed by the server, and redirects are followed; tests use tidy names", "anchors": ["pkg/client/endpoint.go: CreateTrace, DeleteTraceJob, ReadTraceJob, ReadTrace, getJobs", "cmd/server.go: runServer routes, createJobHandler"]}
{"id": "C75", "title": "Metrics follow the containers", "statement": "From the moment the daemon has announced a container to the kernel until the container stops, every completed system call in its pid namespace is counted exactly once, under its number and error; nothing that ran outside announced namespaces is ever counted; after the container has stopped nothing of it is counted or kept.", "quantifier": "every interleaving of kernel activity, container starts and stops, jobs, users and the daemon's goroutines", "why_tests_cant": "the topology callback runs concurrently with the kernel probe; a test exercises one interleaving and cannot show that none of them loses or invents a count", "anchors": ["pkg/topology/hub.go:(*Hub).Run", "pkg/kernel/filter.go:(*Filter).AddMetrics", "pkg/kernel/filter.go:(*Filter).RemoveMetrics", "internal/bpf/probe.c:fill_metrics", "pkg/kernel/metrics/handler.go:(*Handler).PruneNamespace"]}
{"id": "C76", "title": "End to end, users see only true events, in order, once, and only their own", "statement": "Every event a user is handed reports one particular system call that a thread really made and that somebody had asked for: its number, arguments, result, times, owner and container; the events come in the order in which the calls ended and no call is reported twice; a user is handed only events that match the path or job they attached to, and when one concerned user gets an event all of them do.", "quantifier": "every history of the daemon: any interleaving of system calls by any threads, samples written and decoded, jobs created and deleted, containers coming and going, users attaching and detaching", "why_tests_cant": "the claim spans kernel probe, perf buffer, decoder, container cache, job index and publisher at once and must hold for every schedule; unit tests look at one part with one input", "anchors": ["pkg/topology/hub.go:(*Hub).Run", "pkg/topology/hub.go:(*Hub).WriteEvent", "pkg/topology/hub.go:(*Hub).AttachPath", "pkg/topology/hub.go:(*Hub).AttachTrace", "pkg/event/trace.go:(*TraceEvent).Ingest", "internal/bpf/probe.c:swoll__enter", "internal/bpf/probe.c:swoll__exit"]}
{"id": "C77", "title": "End to end, no covered call is missed", "statement": "If a job covers a system call of a container while a thread makes it, nothing was dropped for lack of room and the daemon works off its queue, then every user attached to a matching path is handed the call exactly once and every user of the job once per registration, whatever else happens meanwhile.", "quantifier": "every history of the daemon and every covered call in it", "why_tests_cant": "completeness is a statement about all schedules of kernel, jobs and callbacks, including unrelated jobs being deleted and re-added at any moment", "anchors": ["pkg/topology/hub.go:(*Hub).Run", "pkg/topology/hub.go:(*Hub).PushJob", "pkg/topology/hub.go:(*Hub).DeleteTrace", "pkg/topology/job.go:(*Job).Run", "internal/bpf/probe.c:swoll__enter", "internal/bpf/probe.c:swoll__exit", "internal/bpf/probe.c:swoll__execve"]}
{"id": "C78", "title": "The daemon survives every history", "statement": "No sequence of container events, job requests, system calls, user attachments and detachments ends the daemon.", "quantifier": "every history of the daemon", "why_tests_cant": "a crash needs a particular combination of requests and schedule; tests can only try some", "anchors": ["pkg/topology/hub.go:(*Hub).Run", "pkg/event/trace.go:(*TraceEvent).Ingest", "internal/pkg/pubsub/pubsub.go", "pkg/topology/hub.go:(*Hub).WriteEvent"]}
{"id": "C79", "title": "No two goroutines touch a shared table at once", "statement": "However many requests, watchers and jobs are being served and however the goroutines are scheduled, two of them are never about to touch the same shared state (registered jobs, subscriptions, container cache, job lists, a job's hosts and status, word clouds, a websocket) with one of them writing.", "quantifier": "all finite families of server goroutines, all branches they take, all interleavings of their steps", "why_tests_cant": "the race detector only sees the interleavings that happen in a test; the claim is about every schedule of any number of goroutines", "anchors": ["pkg/topology/hub.go:PushJob", "pkg/topology/hub.go:DeleteTrace", "pkg/topology/hub.go:Run", "pkg/topology/job.go:Run", "internal/pkg/pubsub/pubsub.go:Publish", "cmd/server.go:getJobsHandler", "cmd/server.go:traceWriter", "cmd/server.go:updateMetrics"]}
{"id": "C80", "title": "Goroutines do not wait for each other for ever", "statement": "Under every schedule the goroutines of the server, of the top view and of subscribers can go on until all are done; each takes a bounded number of steps, releases only locks it has, and in the end no lock is held.", "quantifier": "all finite families of goroutines, all branches they take, all interleavings of their steps", "why_tests_cant": "a deadlock needs a particular interleaving of three or more lock operations; tests pass unless they happen to hit it", "anchors": ["pkg/topology/hub.go:Run", "internal/pkg/pubsub/pubsub.go:Subscribe", "cmd/server.go:getJobsHandler", "cmd/top.go:makeSortable", "internal/pkg/alert/queue.go:Push"]}
{"id": "C81", "title": "A client that does not read holds up nobody else", "statement": "While the server sends to clients that do not read, every other request, job and watcher still gets done.", "quantifier": "all reachable states in which any number of goroutines is sending, all schedules of the others", "why_tests_cant": "needs every combination of stalled senders and every schedule of the rest", "anchors": ["cmd/server.go:jobWriter", "cmd/server.go:traceWriter", "cmd/server.go:getJobsHandler", "pkg/topology/hub.go:Run", "internal/pkg/pubsub/pubsub.go:Publish"]}
{"id": "C82", "title": "A deleted job stays deleted", "statement": "Once the server has answered a DELETE for a job with 200, the job is not listed, wants nothing, and nobody who watches it is handed any event, until somebody creates a job with that id again.", "quantifier": "every history of requests, container notices, calls, websocket connections and disconnections before and after the DELETE, in every interleaving", "why_tests_cant": "The deletion and the goroutine that follows containers for the job run concurrently; what happens later depends on every container that starts afterwards.", "anchors": ["cmd/server.go:deleteJobHandler", "pkg/topology/hub.go:DeleteTrace", "pkg/topology/job.go:Run"]}
{"id": "C83", "title": "Every running job can be deleted", "statement": "A DELETE for a listed job takes it off the list, takes all it wants out of the hub and leaves other jobs alone; a DELETE for anything else answers 404 and changes nothing.", "quantifier": "every reachable state of the server and every job id", "why_tests_cant": "The answer depends on what the job has been told about so far and on jobs of the same id deleted before.", "anchors": ["cmd/server.go:deleteJobHandler", "pkg/topology/hub.go:DeleteTrace"]}
{"id": "C84", "title": "Closing a websocket ends its subscription", "statement": "The subscriptions in place are those of the websockets that are open: when a client goes away, the server stops collecting events for it, for ever.", "quantifier": "every history of connections, disconnections, failed pings, jobs and events", "why_tests_cant": "Subscriptions are added and removed by goroutines per connection; a leak shows only after arbitrarily many later events.", "anchors": ["cmd/server.go:jobWriter", "cmd/server.go:traceWriter", "cmd/server.go:jobReader", "pkg/topology/hub.go:AttachTrace", "pkg/topology/hub.go:AttachPath"]}
{"id": "C85", "title": "The kernel records only what some job asks for", "statement": "At any moment the kernel side records a call of a pid namespace only if some job is registered for that syscall in that namespace.", "quantifier": "every history of requests, container notices and steps of the jobs' goroutines, in every interleaving", "why_tests_cant": "Rules are added and removed by different goroutines in separate steps; a rule left behind depends on the schedule.", "anchors": ["pkg/topology/job.go:Run", "pkg/topology/hub.go:DeleteTrace", "pkg/kernel/filter.go:AddSyscall", "pkg/kernel/filter.go:RemoveSyscall"]}
{"id": "C86", "title": "No client can end the server", "statement": "Whatever jobs clients ask for, watch, abandon and delete, and whatever containers and calls there are, the server process goes on.", "quantifier": "every history of requests with every body, container notices, websocket connections, kernel refusals and calls, in every interleaving", "why_tests_cant": "One panic in any goroutine ends the process for all clients; which request arms it and which later event sets it off can be arbitrarily far apart.", "anchors": ["cmd/server.go:createJobHandler", "pkg/topology/job.go:Run", "pkg/topology/hub.go:Run"]}
{"id": "C87", "title": "A job does what its request asks for", "statement": "A create request answered with 201 leads to a job that, for every container the request selects, covers every syscall the request names; calls made afterwards reach every client that watches the job or the container.", "quantifier": "every history before and after the request, every body, every container and every call", "why_tests_cant": "It spans the HTTP handler, a goroutine per job, the kernel filter, the probe, the decoder and the publisher, with arbitrary interleavings.", "anchors": ["cmd/server.go:createJobHandler", "pkg/topology/job.go:Run", "pkg/topology/hub.go:PushJob", "pkg/topology/hub.go:Run"]}
{"id": "C88", "title": "A job ends when its duration is over", "statement": "A listed job stays listed until it is deleted or, if its request gave a duration, until that duration is over.", "quantifier": "every history after the request and every duration", "why_tests_cant": "A test would have to run past every duration in every interleaving; that nothing ever ends the job is a statement about all continuations.", "anchors": ["cmd/server.go:createJobHandler", "cmd/server.go:deleteJobHandler", "api/v1alpha1/trace_types.go:TraceSpec"]}
{"id": "C89", "title": "The printed call is the call that was made", "statement": "For every traced call, the printed line shows Linux's name of the call and its arguments: each under the name and in the order of the manual page, each with a text that reads as what the program passed (numbers in decimal, strings as they are, flags and constants by the names Linux has for them), and none left out.", "quantifier": "every decoded system call, every argument value and memory contents, every iteration order of the name tables", "why_tests_cant": "58 calls with 150 arguments, each with 2^32 or 2^64 values or arbitrary memory; one wrong table row misreports one call for ever.", "anchors": ["pkg/event/call/syscall.go:DecodeSyscall", "pkg/event/call/function.go:Argument", "cmd/trace.go:cmdTrace"]}
{"id": "C90", "title": "Different calls print differently", "statement": "If an argument of two traced calls is printed with the same text, both programs passed the same thing there; lines that are equal report equal calls.", "quantifier": "all pairs of calls by any tasks, with any other arguments", "why_tests_cant": "It is a statement about pairs of unbounded inputs; examples that differ prove nothing about those that collide.", "anchors": ["cmd/trace.go:cmdTrace", "pkg/event/call/execve.go:Arguments", "pkg/types/fileflags.go:String"]}
{"id": "C91", "title": "One event is one line", "statement": "Each event is printed as exactly one line, so that what a traced program passes cannot look like another event.", "quantifier": "every event of every system call, with any strings, command and container names", "why_tests_cant": "The strings are chosen by the traced programs; a test would have to try all of them.", "anchors": ["cmd/trace.go:cmdTrace", "cmd/client.go:cmdClientCreate"]}
{"id": "C92", "title": "The columns of a line", "statement": "A printed line shows how long the call took in milliseconds, to the nearest thousandth; the container as name.pod.namespace; the command; the error, OK or Linux's name of it; and, without containers, the number of the process.", "quantifier": "every call, any start and end time, any result, any container", "why_tests_cant": "Latency goes through float64 and decimal rounding for 64-bit times; the claim is about all of them.", "anchors": ["cmd/trace.go:cmdTrace", "pkg/event/trace.go:LatencyMS", "pkg/types/container.go:FQDN", "cmd/client.go:cmdClientCreate"]}
{"id": "C93", "title": "Linux's system calls are known by name and number", "statement": "Looking up a system call, by name with or without prefix or by number, finds the one to which x86-64 Linux gives that name and number; every system call of Linux is found.", "quantifier": "all 373 system calls of Linux, all keys, every iteration order of the class table", "why_tests_cant": "The table is compared as a whole with the kernel's own, and the claim covers all keys outside it too.", "anchors": ["pkg/syscalls/syscalls.go:New", "pkg/syscalls/syscalls.go:Lookup", "pkg/syscalls/consts.go"]}
{"id": "C94", "title": "Host tracing prints exactly the named calls", "statement": "`swoll trace --no-containers` starts just if every name given is that of a system call. Then it prints, in the order in which they ended and once each, the calls of those names made by any thread of the machine, and nothing else; with no name given, every execve. Each line says what the call was: the system call, the process, the arguments, the result and the time.", "quantifier": "all lists of names, all interleavings of the calls of all threads with the reading of samples, all lost samples and full maps", "why_tests_cant": "A test traces a handful of calls of one process; the claim is about every interleaving of every thread.", "anchors": ["cmd/trace.go:209-258", "internal/bpf/probe.c:2542-2769", "pkg/event/trace.go:Ingest"]}
{"id": "C95", "title": "Host tracing goes on until it is stopped", "statement": "Nothing that a process of the machine does, whatever calls it makes and with whatever arguments, ends a running `swoll trace --no-containers`.", "quantifier": "all names a trace can be started for, all histories of calls", "why_tests_cant": "The trace ends only when a call of a certain kind is made, which the tests never make.", "anchors": ["cmd/trace.go:248-257", "pkg/event/trace.go:Ingest", "pkg/event/call/call.go:DecodeSyscall"]}
{"id": "C96", "title": "The tracer does not trace itself", "statement": "`FilterSelf` makes sure that no events with the process id of the caller are emitted by the kernel, and the hub calls it so as not to see events of its own. A trace does not report the calls by which it writes its own report.", "quantifier": "all filters, all process ids, all histories of calls and printed lines", "why_tests_cant": "A feedback loop shows only when the tracer itself runs under its own trace for a while; no test loads a probe.", "anchors": ["pkg/kernel/filter.go:FilterSelf", "pkg/topology/hub.go:NewHub", "cmd/trace.go:209-258"]}
{"id": "C97", "title": "The probe loaded is the one named", "statement": "`trace`, `server` and `top` load the BPF object named by `--bpf`; if none is named there, the one named by SWOLL_BPFOBJECT; if none is named at all, or the named one does not exist, the one in the executable. A named object that cannot be used is never replaced silently.", "quantifier": "all values of flag and variable, all states of the file system", "why_tests_cant": "Tests run with one file and one environment; precedence and fallbacks are a matter of all combinations.", "anchors": ["cmd/loader.go:loadBPFargs", "cmd/trace.go:100-103", "cmd/server.go:777-780", "cmd/top.go:431"]}
{"id": "C98", "title": "Settings are taken from the flags, then from the environment", "statement": "For every command that loads a probe the CRI socket, the Kubernetes configuration, the root of the process table and the offsets of kernel structures are those of the flags; the first three are otherwise those of SWOLL_CRISOCKET, SWOLL_KUBECONFIG and SWOLL_ALTROOT.", "quantifier": "all commands, flags and environments", "why_tests_cant": "Combinations of commands, flags and variables are too many to try, and commands differ without need.", "anchors": ["cmd/trace.go:36-49", "cmd/server.go:738-763", "cmd/top.go:384-401", "cmd/offsetter.go:SetOffsetsFromArgs"]}
{"id": "C99", "title": "The self test passes just on machines that can be traced", "statement": "`swoll selftest`, which `trace` and `server` run first, succeeds if and only if CAP_SYS_ADMIN is effective, the tracing directory is there (after mounting it, if asked to repair) and the configuration of the running kernel, if it can be found, enables what the probe needs.", "quantifier": "all machines and all kernel configuration files", "why_tests_cant": "A test runs on one machine with one kernel.", "anchors": ["cmd/selftest.go:runSelfTest", "cmd/selftest.go:parseBootConfig", "cmd/selftest.go:checkMounts"]}
{"id": "C100", "title": "The controller finds the probe of every node", "statement": "A controller started without `--endpoints` has the jobs of its traces ask the probe of every node of the cluster, at the node's address and port 9095.", "quantifier": "all clusters: any number of nodes, with any addresses, and all trace resources", "why_tests_cant": "Tests know no cluster; the defect needs a second node, an IPv6 address or a node that is just joining.", "anchors": ["cmd/controller.go:88-101", "internal/pkg/controller/trace.go:createJobResource", "cmd/client.go:parseStaticEndpointsArg"]}
{"id": "C101", "title": "A command line that cannot be obeyed is refused", "statement": "A log level, output format or system call that the program does not know ends it with a message, instead of being ignored.", "quantifier": "all values of the flags, all histories of calls", "why_tests_cant": "Unknown values are infinitely many, and silence looks like a quiet machine.", "anchors": ["cmd/root.go:44-61", "cmd/trace.go:105-160"]}
{"id": "C102", "title": "client create makes the job on every endpoint or on none", "statement": "`swoll client create` over several endpoints ends successfully only if the job runs on all of them; if it ends with an error none is left with the job; other jobs and other servers are not touched.", "quantifier": "all lists of endpoints, all answers and lost answers, all moments of an interrupt", "why_tests_cant": "Tests use one endpoint that answers; partial failure needs several and an order of failures.", "anchors": ["cmd/client.go:cmdClientCreate", "pkg/client/endpoint.go:CreateTrace"]}
{"id": "C103", "title": "A one-shot job leaves nothing behind", "statement": "When `swoll client create --oneshot` has ended, none of its endpoints runs the job any more.", "quantifier": "all lists of endpoints, all interleavings of its goroutines, all answers, all moments of an interrupt", "why_tests_cant": "The defect depends on when goroutines read a variable of a loop, and on more than one endpoint.", "anchors": ["cmd/client.go:262-286"]}
{"id": "C104", "title": "Watching shows every endpoint's events", "statement": "`swoll client watch` prints, for every endpoint, the events of the job in the order the endpoint sends them, each once, from the moment its websocket is open until it is closed.", "quantifier": "all lists of endpoints, all interleavings, all messages", "why_tests_cant": "Interleavings of streams and message sizes are unbounded.", "anchors": ["cmd/client.go:watchJob", "pkg/client/endpoint.go:readWebsock"]}
{"id": "C105", "title": "client delete deletes the job everywhere", "statement": "After `swoll client delete` no endpoint given runs the job, except those for which it reported a failure.", "quantifier": "all lists of endpoints, all answers", "why_tests_cant": "The order of failures over many endpoints is unbounded.", "anchors": ["cmd/client.go:cmdClientDelete", "pkg/client/endpoint.go:DeleteTraceJob"]}
{"id": "C106", "title": "A client ends when it is told to", "statement": "Interrupted, a client command finishes its clean-up and ends, whatever its goroutines were doing; a one-shot command whose streams are over ends by itself.", "quantifier": "all states of all goroutines at the moment of the interrupt, all later interleavings", "why_tests_cant": "Signals can arrive between any two steps.", "anchors": ["cmd/client.go:244-343", "cmd/client.go:watchJob"]}
{"id": "C107", "title": "Create, delete and query agree", "statement": "After a successful create, `swoll client query running` lists the job for every endpoint given; after a successful delete, for none; an endpoint that cannot be reached is reported and does not hide the others.", "quantifier": "all lists of endpoints, all jobs running there before, all answers", "why_tests_cant": "Ranges over all endpoint lists and all prior states of the servers.", "anchors": ["cmd/client.go:runQuery", "cmd/client.go:cmdClientCreate", "cmd/client.go:cmdClientDelete"]}
{"id": "C108", "title": "An idle stream stays open, and a dead one is noticed", "statement": "A websocket stream on which no event happens stays open as long as each side answers the other's pings in time, however long it is idle; and when the client is gone, the server ends the stream and unsubscribes it within a minute of its last sign of life.", "quantifier": "all sequences of times at which pongs are read, for any number of pings, and all opening times", "why_tests_cant": "the bound is over sessions of unlimited length; a test waits for one or two pings", "anchors": ["cmd/server.go: jobReader, jobWriter, traceWriter, pongWait, pingPeriod", "pkg/client/endpoint.go: createWebsock, readWebsock, writeWebsock, pongWait, pingPeriod"]}
{"id": "C109", "title": "Every line of swoll trace reports a call that was asked for", "statement": "Whatever `swoll trace` prints for containers is a sequence of lines, each showing an event that truly reports a call some thread made: of a system call named on the command line (execve if none), in a container that was announced to the trace before, with the container that lived in that namespace when the call was decoded. Lines come in the order in which the calls ended.", "quantifier": "all names, output formats and interleavings of calls, containers starting and stopping, the job's registrations, refused rules and the hub's steps", "why_tests_cant": "The lines depend on the interleaving of the observer, the job's goroutine, the kernel and the hub; tests run one.", "anchors": ["cmd/trace.go:105-208", "pkg/topology/job.go:81-197", "pkg/topology/hub.go"]}
{"id": "C110", "title": "swoll trace shows every call once", "statement": "A call of a kind that was named, made in a container the trace has registered for, is printed when the queues are empty again; and no call is printed twice.", "quantifier": "all histories, calls, containers and names", "why_tests_cant": "Completeness and no duplication over all interleavings cannot be sampled.", "anchors": ["cmd/trace.go:105-208", "pkg/topology/job.go:128-193", "pkg/topology/hub.go"]}
{"id": "C111", "title": "swoll trace goes on until it is stopped", "statement": "Nothing that happens on the node ends a running trace, and a command line it cannot obey is rejected at the start.", "quantifier": "all names, formats and histories", "why_tests_cant": "A crash may need a container or a call that no test makes.", "anchors": ["cmd/trace.go:53-208", "pkg/topology/job.go:108-193", "pkg/event/call/syscall.go"]}
{"id": "C112", "title": "A copy of a custom resource is equal to it and shares nothing with it", "statement": "DeepCopy and DeepCopyObject of a trace, a list of traces, a specification or a status return an object through which exactly the same is seen (nil and empty kept apart); the original is not changed; afterwards, whatever is written through one of the two, at any depth, is never seen through the other. The copy of nil is nil, also as an interface.", "quantifier": "every object with any sharing among its parts, every item count, and every interleaving of later writes by the two holders", "why_tests_cant": "aliasing shows only in the field somebody forgot and under the writes a test does not make", "anchors": ["api/v1alpha1/zz_generated.deepcopy.go: DeepCopyInto, DeepCopy, DeepCopyObject", "api/v1alpha1/trace_types.go: Trace, TraceList, TraceSpec, TraceStatus"]}
{"id": "C113", "title": "Metrics count every call once, on any number of CPUs", "statement": "For each namespace, system call and error number the metrics report as many calls as returned, whichever CPUs they returned on and whatever other calls are entered or return at the same time; they never report more.", "quantifier": "all numbers of CPUs, interleavings of the handlers, and deletions by the agent", "why_tests_cant": "A lost update needs two CPUs inside a window of a few instructions.", "anchors": ["internal/bpf/probe.c:swoll__update_metrics", "internal/bpf/probe.c:swoll__update_metrics_ktime", "pkg/kernel/metrics/handler.go:PruneNamespace"]}
{"id": "C114", "title": "Sampling keeps its rate on any number of CPUs", "statement": "A rule with a sample rate lets the first and then every n-th matching call through, and a rule without one lets every matching call through, on whatever CPUs the calls are made.", "quantifier": "all rules, numbers of CPUs and interleavings", "why_tests_cant": "The counter is shared; the verdicts depend on the interleaving.", "anchors": ["internal/bpf/probe.c:swoll__run_nfilter"]}
{"id": "C115", "title": "Threads on other CPUs never disturb the pairing of entry and exit", "statement": "The events sent for a thread are exactly those its own entries and exits give, each exit paired with the entry before it and carrying what was kept then, whatever other threads do on other CPUs at the same time.", "quantifier": "all numbers of CPUs, threads and interleavings of the handlers", "why_tests_cant": "Depends on which memory is shared between CPUs and when.", "anchors": ["internal/bpf/probe.c:swoll__enter", "internal/bpf/probe.c:swoll__exit"]}
{"id": "C116", "title": "Classes and groups list every known call exactly once", "statement": "Listing by class gives exactly the known calls of the class, each once, and listing by group those of the class with that group; the classes and groups named are those that have calls, each named once; no call is in two groups.", "quantifier": "all iteration orders of the tables, all class and group names", "why_tests_cant": "Map iteration order is random; a test sees a few orders.", "anchors": ["pkg/syscalls/syscalls.go:GetByClass", "pkg/syscalls/syscalls.go:GetByGroup", "pkg/syscalls/syscalls.go:Classes", "pkg/syscalls/syscalls.go:Groups", "pkg/syscalls/syscalls.go:Calls"]}
{"id": "C117", "title": "The status of an answer tells what was done", "statement": "A request to create or delete a job is answered with 201 exactly if it created the job, with 200 only if a job of that id was deleted, and with an error status only if nothing was changed.", "quantifier": "all histories of overlapping create and delete requests", "why_tests_cant": "What other requests do between two steps of a handler decides the answer.", "anchors": ["cmd/server.go:createJobHandler", "cmd/server.go:deleteJob", "cmd/server.go:deleteJobHandler"]}
{"id": "C118", "title": "An event shows the arguments as they were when the call was made", "statement": "The decoded arguments, including the strings and structures pointers point to, are those the kernel was given, whatever other threads of the program write to that memory before the call returns.", "quantifier": "all system calls and fields, memory contents at entry and at exit", "why_tests_cant": "A race between the call and another thread of the traced program.", "anchors": ["internal/bpf/probe.c:swoll__exit", "internal/bpf/probe.c:EVENT_ARG0", "pkg/event/trace.go:Ingest"]}
{"id": "C119", "title": "End to end, a sampled job gets every r-th of its events", "statement": "A job that asks for sampling at rate r is registered for calls of one or more containers. Of the events of those calls that the daemon hands out, in order and over all its containers together, the users attached to the job get the r-th, the 2r-th and so on, each once, and no other; and every call made while the job covers it is among those events.", "quantifier": "all histories of calls, jobs, containers, users and daemon steps in every interleaving, all rates, all other jobs", "why_tests_cant": "The counting depends on the whole history of events of all containers and on which other jobs share the calls.", "anchors": ["pkg/topology/job.go:(*Job).WriteEvent", "pkg/topology/job.go:(*Job).Run", "pkg/topology/hub.go:(*Hub).findLowestSampleJob", "pkg/topology/hub.go:(*Hub).Run"]}
{"id": "C120", "title": "A job watches exactly the pods its selectors select", "statement": "When a trace is asked for in a namespace, with a label selector and a field selector, the job watches the pods of that namespace that both selectors select, and no others; this also holds for the job the controller makes of a trace resource.", "quantifier": "all namespaces, selectors, pods, and all rules of the API server for keys, values and fields", "why_tests_cant": "Selectors are turned into strings and parsed again; only a proof covers all labels and fields.", "anchors": ["pkg/topology/job.go:(*Job).Run", "pkg/topology/kubernetes.go:connectKube", "internal/pkg/controller/trace.go:createJobResource"]}
{"id": "C121", "title": "Pods that opt out are never shown", "statement": "No client of the server is ever handed an event of a container of a pod labelled swoll=false, whatever jobs there are; the pods swoll itself runs for traces opt out.", "quantifier": "all histories of pods, labels, containers, requests, clients, calls and lost connections, in every interleaving", "why_tests_cant": "Whether an event is resolved to a container depends on the whole history of pods and notifications.", "anchors": ["cmd/server.go:runServer", "pkg/topology/kubernetes.go:Run", "internal/pkg/controller/trace.go:createJobResource"]}
{"id": "C122", "title": "Observers follow the pods they select", "statement": "Once an observer has handled the changes of a pod, the server (or the job) knows the containers of the pod if it is there and selected as it is now, and does not know them if it is not; and it is told of no containers of other pods.", "quantifier": "all histories of pods, relabellings, deletions, lost connections and new lists, all interleavings of handling", "why_tests_cant": "Notifications of different pods are handled in any order and labels change meanwhile.", "anchors": ["pkg/topology/kubernetes.go:Run", "pkg/topology/topology.go:Run"]}
{"id": "C123", "title": "Losing touch with the API server does no harm", "statement": "When an observer loses the API server and is back, the server goes on, and knows the pods as they are then.", "quantifier": "all histories, all moments of losing and regaining the connection, all changes of pods meanwhile", "why_tests_cant": "It depends on what changes while nobody is looking.", "anchors": ["pkg/topology/kubernetes.go:Run (DeleteFunc)"]}
{"id": "C124", "title": "Clients of a job are shown only what the job is about", "statement": "Every event that a client watching a job is handed is of a call that the job's request names, made in a container that the request names, of a pod that the request selects.", "quantifier": "all histories of pods, requests, clients and calls, in every interleaving", "why_tests_cant": "Jobs share the kernel filter and the hub's tables, so one job's events could leak to the clients of another.", "anchors": ["pkg/topology/job.go:(*Job).Run", "pkg/topology/hub.go:(*Hub).RunJob", "cmd/server.go:watchJob"]}
{"id": "C125", "title": "A line of client watch tells the event", "statement": "For every event it reads, the watching command prints one line with the container, the command, the system call, its arguments, the error and the session, as the program made the call; numbers read as numbers, and nothing that a traced program passes to a call can add lines or control the terminal.", "quantifier": "all system calls, arguments, memory contents, results, tasks and containers", "why_tests_cant": "What reaches the terminal depends on every byte of the program's memory and on the formatter's rules for every argument type.", "anchors": ["pkg/event/trace.go:ColorString", "cmd/client.go:watchJob", "pkg/event/call/*.go"]}
{"id": "C126", "title": "Clients of a job are shown every call the job is about", "statement": "Once the server and a job that was answered 201 have seen a pod that the job's request selects, everyone who is watching the job when a call is reported is handed every call that the request names, made in a container that the request names, of that pod, with the name of that container, as long as the pod stays as it is and nobody deletes the job; everyone who is watching the container, its pod or its namespace is handed it once.", "quantifier": "all histories of pods, containers, requests, other jobs, clients and calls, in every interleaving", "why_tests_cant": "A call has to get through two informers, the job's goroutine, the kernel filter, which all jobs share, the queues and the hub's tables; a test sees one order of them.", "anchors": ["pkg/topology/job.go:(*Job).Run", "pkg/topology/hub.go:(*Hub).RunJob", "pkg/topology/kubernetes.go:(*Kubernetes).Run", "pkg/kernel/filter.go:(*Filter).RemoveSyscall", "cmd/server.go:watchJob", "pkg/client/endpoint.go:(*Endpoint).ReadTrace"]}
{"id": "C127", "title": "Selectors on the command line choose the pods", "statement": "swoll top with a label selector watches exactly the running pods of the namespace that meet every condition of the selector; swoll trace watches exactly the pods of the namespace that have all the labels and fields given on its command line.", "quantifier": "all namespaces, all lists of conditions and labels made of keys and values the API server accepts, all white space between them, all pods", "why_tests_cant": "Selectors are written by users, read and printed again by swoll and read once more by the API server; only a proof covers all of them.", "anchors": ["cmd/top.go:cmdTop", "cmd/trace.go:cmdTrace", "pkg/topology/job.go:(*Job).Run", "pkg/topology/kubernetes.go:connectKube"]}
{"id": "C128", "title": "What a trace resource asks for is shown", "statement": "For every trace resource in a namespace, once the request made of it has been answered with 201, the answer is for the id that the controller chose, and once the server and the job have seen a pod that the resource selects and that stays as it is, every call that the resource names, made in a container that the resource names, is handed to everyone who watches the job of the resource, and once to everyone who watches the container, its pod or its namespace.", "quantifier": "all trace resources, all histories of pods, containers, requests, other jobs, clients and calls after it, in every interleaving", "why_tests_cant": "A resource is printed as a command line, read back, sent as JSON, turned into selectors for the API server and into rules in the kernel; a test follows one resource through one schedule.", "anchors": ["internal/pkg/controller/trace.go:(*TraceReconciler).createJobResource", "cmd/client.go:createJob", "pkg/client/endpoint.go:(*Endpoint).CreateTrace", "cmd/server.go:createJobHandler", "pkg/topology/job.go:(*Job).Run"]}
{"id": "C129", "title": "A trace survives the way to the server and back", "statement": "What a client asks for when it creates a trace - selectors, hosts, system calls, duration, sample rate - is what the server reads from the body, however the same JSON is spaced or escaped; the client is answered with that same request, the namespace, the name of the job and its link; and the lists of running, completed and all jobs a client gets hold every job of the server once with what was asked for. In a body written by hand the last value given for a field counts and a field that is not given is empty.", "quantifier": "every request with any texts, labels, conditions, durations and rates; every text that says the same JSON value; every table of running and completed jobs", "why_tests_cant": "texts need escapes, durations have many spellings, maps have any order: only a proof about writer and reader covers all of them", "anchors": ["pkg/client/endpoint.go:82-222", "cmd/server.go:86-169", "cmd/server.go:290-395", "api/v1alpha1/trace_types.go"]}
{"id": "C130", "title": "A body that is no trace is refused", "statement": "The server starts a job only for a body that is a JSON object whose fields are those of a trace and of their kind, with nothing after it.", "quantifier": "every request body", "why_tests_cant": "there are unboundedly many bodies", "anchors": ["cmd/server.go:290-395"]}
{"id": "C131", "title": "A rule decides the calls it is about", "statement": "A rule made of options in any order - shown or counted calls, a system call, a pid namespace, a process, drop or allow, a sample rate - decides, once it is added, exactly the calls that fit all its options and for which no rule of a higher level is present; every other call is decided as before.", "quantifier": "every list of options, every table any history of adding, removing, enabling and lookups leads to, every call", "why_tests_cant": "histories, and every combination of options", "anchors": ["pkg/kernel/filter.go: NewFilterRule, AddRule, FilterRuleSet*", "internal/bpf/probe.c:swoll__run_nfilter"]}
{"id": "C132", "title": "Every event reaches a client in a message it accepts", "statement": "The server sends each event as one message and a client reads messages of at most 4096 bytes, a longer one ending its stream: every event fits, whatever arguments the traced program passes, as long as its container's description is of ordinary length.", "quantifier": "every event of every system call with any arguments, any state of the daemon's memory, every container whose description is at most 1850 bytes", "why_tests_cant": "the longest message depends on how every byte of every argument is escaped, over 60 argument types", "anchors": ["cmd/server.go:212,253", "pkg/client/endpoint.go:28,145", "pkg/event/trace.go:18-43", "pkg/event/call/*.go", "pkg/types/container.go:5-15"]}
{"id": "C133", "title": "A client is sent what is in the events and nothing else", "statement": "What the server sends for an event is determined by the event, its container and the tables of names; nothing else of the daemon's memory is sent.", "quantifier": "every event of every system call, any two states of the daemon's memory beside the event", "why_tests_cant": "absence of a flow from memory the tests do not control", "anchors": ["pkg/types/c.go:9-18", "pkg/event/call/mprotect.go:21-34", "pkg/event/call/nanosleep.go:17-21", "cmd/server.go:212,253"]}
{"id": "C134", "title": "A client reads from the message of an event what the server put into it", "statement": "The text of the message the server sends for an event, read by a client, gives an event of the same system call with the same numbers, times, container, labels and arguments; text that is not UTF-8, unknown error numbers and named IPv6 socket options are the only exceptions, and flag sets and socket addresses come back as their own specification says.", "quantifier": "every event of every system call with any arguments, any container with numbers of 64 bits, any state of the daemon's memory", "why_tests_cant": "the writer and the reader of JSON, their escapes, base64 and the methods of some 60 types must agree on every byte", "anchors": ["pkg/client/endpoint.go:138-180", "pkg/event/trace.go:18-43, 63-232", "pkg/event/call/*.go", "pkg/types/container.go:5-15"]}
{"id": "C135", "title": "No message can crash a client", "statement": "Whatever text a server sends as a message, a client either has an event or skips the message; it does not crash, and hands on no event that is missing.", "quantifier": "every text", "why_tests_cant": "the texts are infinitely many, and come from another program", "anchors": ["pkg/client/endpoint.go:138-180", "pkg/event/trace.go:63-77", "cmd/client.go:129-133"]}
{"id": "C136", "title": "A watching client prints the calls that were made, one line each, in order", "statement": "Every call traced on any of the endpoints of client watch arrives as one message, is accepted, and is printed as one line that names the container, the command, the call, its arguments, its error and its session; the lines of an endpoint are in the order of its calls, none is missing and none is added.", "quantifier": "every number of calls of any tasks with any arguments, every interleaving of endpoints, messages and reading, whatever the server's memory holds beside the events", "why_tests_cant": "it is the composition of probe, decoder, JSON on the wire, the client's decoder and its printer over all values", "anchors": ["internal/bpf/probe.c", "pkg/event/trace.go:18-232", "cmd/server.go:205-214", "pkg/client/endpoint.go:193-238", "cmd/client.go:115-136"]}
{"id": "C137", "title": "The page of a stream opens that stream", "statement": "If a browser asks the server for the page of a job, a namespace, a pod, a container or of everything, and is answered with the page, then the websocket that the page opens goes to the same server, with TLS just if the page came with it, and the server answers it with the stream of that job, namespace, pod, container or of everything; and every name that can be part of a path has its page.", "quantifier": "every request target, with any escapes and query, and every name of a job, namespace, pod and container", "why_tests_cant": "The names are arbitrary text that is escaped, cleaned and matched against the routes in their order; tests try some names.", "anchors": ["cmd/server.go:websockRedir", "cmd/server.go:805-821", "cmd/server.go:getJobHandler", "cmd/server.go:traceWatchHandler"]}
{"id": "C138", "title": "The answers of the API are what they say they are", "statement": "Every answer of the server to a request about jobs has the status that belongs to its outcome, a body that is one JSON text saying the outcome (the trace, the jobs, OK or the reason of the refusal), and a label that says that it is JSON; the pages are labelled as HTML.", "quantifier": "every request, table of jobs, name, body and reason of an error", "why_tests_cant": "The order of setting headers, status and body matters and is not visible in the body; recorders of tests show the headers as they are after the handler, not as they are sent.", "anchors": ["cmd/server.go:errorHandler", "cmd/server.go:successHandler", "cmd/server.go:createJobHandler", "cmd/server.go:deleteJobHandler", "cmd/server.go:getJobsHandler", "cmd/server.go:getJobHandler", "cmd/server.go:traceWatchHandler", "cmd/server.go:websockRedir"]}
{"id": "C139", "title": "A client whose request is refused is told the reason", "statement": "If the server refuses to create or delete a job or to open its stream, the error that the client library returns has the reason the server gave in it; if it accepts, the client gets what it asked for; and no refusal is taken for a success.", "quantifier": "every request, reason and answer of the server", "why_tests_cant": "The reasons are arbitrary text that goes through JSON and through a format string; tests try some.", "anchors": ["pkg/client/endpoint.go:CreateTrace", "pkg/client/endpoint.go:DeleteTraceJob", "pkg/client/endpoint.go:createWebsock", "pkg/client/endpoint.go:getJobs", "cmd/server.go:errorHandler"]}
{"id": "C140", "title": "Combined paths visit every path of every part", "statement": "A publish that uses paths combined from several parts follows every path of every part exactly once, part by part and in their order, so that each subscriber gets the event once for each way that one of the parts spells its path; and it does so for every event.", "quantifier": "every number and nesting of parts, every list of paths in them, every history of subscriptions and every event", "why_tests_cant": "The combination keeps a position across calls that depends on the lengths of the parts before; tests try some lengths.", "anchors": ["internal/pkg/pubsub/pubsub.go:CombinePaths", "internal/pkg/pubsub/pubsub.go:FlatPaths", "internal/pkg/pubsub/pubsub.go:PathsWithTraverser", "internal/pkg/pubsub/pubsub.go:PathAndTraversers", "internal/pkg/pubsub/pubsub.go:traversePublish"]}
{"id": "C141", "title": "What swoll top draws is what was counted", "statement": "The table of swoll top has one row for each call, result and container seen so far, with their names and the latest count, no two rows for the same, and rows of failed calls, and only those, in the colour of errors; its graphs show the changes of the latest seconds, up to the last one.", "quantifier": "every history of ticks with any metrics and containers, every order of the rows and every width", "why_tests_cant": "Which rows exist and what they hold depends on the whole history and on map order.", "anchors": ["cmd/top.go:update", "cmd/top.go:makeSortable", "cmd/top.go:lookupOrCreate", "cmd/top.go:cmdTop"]}
{"id": "C142", "title": "Events carry the numbers the process itself sees", "statement": "The process number and the session an event carries are what getpid() and getsid(0) say in the process that made the call, in its own pid namespace: the same for all its threads, and 0 for a session that began outside the namespace. The other namespaces and the number of context switches are those of the thread.", "quantifier": "every history of forks, new namespaces, new threads, unshare, setns and setsid by any processes, every nesting of namespaces, every thread at every point, every setting of the offsets (for the namespaces: right ones)", "why_tests_cant": "Tests run in one namespace or two; how the numbers of nested namespaces are indexed only shows at other depths and after moves.", "anchors": ["internal/bpf/probe.c:swoll__pid_nr_ns", "internal/bpf/probe.c:swoll__task_pid_nr_ns", "internal/bpf/probe.c:swoll__task_tgid_vnr", "internal/bpf/probe.c:swoll__task_session_vnr", "internal/bpf/probe.c:swoll__event_fill_init", "internal/bpf/probe.c:swoll__event_fill_namespaces"]}
{"id": "C143", "title": "A call is attributed to the pid namespace its process lives in", "statement": "The pid namespace that rules, counts and events go by is the one the calling process lives in, which is what containers are recognised by (/proc/PID/ns/pid). No call a process makes takes its later calls out of the sight of a trace of its container.", "quantifier": "every history of forks, new namespaces, new threads, unshare, setns and setsid by any processes, every thread at every point, right offsets", "why_tests_cant": "A test would have to think of a process that lives in one namespace while its children are to be born in another.", "anchors": ["internal/bpf/probe.c:swoll__task_pid_namespace", "internal/bpf/probe.c:swoll__event_fill_namespaces", "internal/bpf/probe.c:swoll__task_nsproxy", "internal/bpf/probe.c:swoll__get_pid_ns_common", "pkg/topology/kubernetes.go:getPidNamespace"]}
{"id": "C144", "title": "Reading the metrics while calls are counted", "statement": "QueryAll, which top, the charts and Prometheus read the metrics with, reports every metric that is there from before it begins until after it ends exactly once, each with a value it had meanwhile, and ends, whatever the probe counts meanwhile; and PruneNamespace removes every metric of the namespace that was there when it began and none of another.", "quantifier": "every table, every distribution of keys over buckets, every number and timing of calls counted between any two system calls of the reader", "why_tests_cant": "The reader makes two system calls for each metric, the probe counts between any of them, and the kernel moves a metric to the front of its bucket when it is counted; a test meets a shared bucket by chance only.", "anchors": ["pkg/kernel/metrics/handler.go:QueryAll", "pkg/kernel/metrics/handler.go:PruneNamespace", "internal/bpf/probe.c:swoll__update_metrics", "internal/bpf/probe.c:swoll__update_metrics_ktime"]}
{"id": "C145", "title": "Tracing and counting go on however much has happened", "statement": "However many calls, threads and containers there have been, a traced call is shown when it returns, and a call of a counted container is counted. What the probe remembers of the past never takes the room of the present: what it shows and counts is what it would with unbounded tables.", "quantifier": "every history of rules, calls and returns, with threads that end within a call, any number of threads and of kinds of calls, any size of the tables", "why_tests_cant": "The tables have 65535 entries; a test that runs long enough to fill them, with threads that never return, is not written, and no test shows that nothing else can fill them.", "anchors": ["internal/bpf/probe.c:swoll_state_map", "internal/bpf/probe.c:swoll_metrics", "internal/bpf/probe.c:swoll__enter", "internal/bpf/probe.c:swoll__exit", "internal/bpf/probe.c:swoll__update_metrics"]}
{"id": "C146", "title": "Events arrive in the order they happened", "statement": "Run calls its callback with the traced calls in the order in which they ended, each once; after the last call it comes to rest with every event handed over or counted as missed. What one thread did is shown in the order in which it did it, also when the thread moved between CPUs; and the events that wait on one CPU are handed over however busy the others are.", "quantifier": "every number of CPUs, every schedule of events on them and of the reader, every size of the rings", "why_tests_cant": "Which CPU a call runs on and where the reader is at that moment are up to the kernel's scheduler; a test sees one interleaving on an idle machine.", "anchors": ["pkg/kernel/probe.go:Run", "pkg/kernel/probe.go:InitProbe", "internal/bpf/probe.c:swoll__exit"]}
{"id": "C147", "title": "The log shows the rules in force for what they are", "statement": "With debug logging on, the log has one line for every filter rule in force and no other: the line names the mode, the namespace, the thread, the call, the sampling rate and the counts of the rule as it was asked for and as the calls since then have made it. No two rules have the same line, and a rule for all calls is not shown as a rule for one.", "quantifier": "every history of added and removed rules, metrics and calls; every rule the options can make; every order in which the kernel keeps the rules", "why_tests_cant": "A test prints a rule or two; that no two of the rules of any history print alike, and that the counts shown are those of the calls, is about all rules and histories.", "anchors": ["pkg/kernel/filter.go:String", "pkg/kernel/filter.go:GetRunning", "pkg/topology/hub.go:Run", "cmd/trace.go"]}
{"id": "C148", "title": "The server ends when it is told to, and answers what it has begun", "statement": "From the moment the server is interrupted it takes no further request; every request it had begun and whose answer is ready within fifteen seconds is answered; it is gone half a second after the last of them, and fifteen seconds after the interrupt at the latest, whatever its clients do. Until it is told to end it goes on and answers.", "quantifier": "Every history of requests, answers, upgrades to websockets, signals and failures of the hub, every time at which they fall, and every set of requests at work when the signal comes.", "why_tests_cant": "It is about every interleaving of clients and a signal over fifteen seconds of time; a test stops one server at one moment, and almost always with no request at work.", "anchors": ["cmd/server.go: serverCmd run, signal.Notify, srv.Shutdown, srv.ListenAndServe, hub.Run"]}
{"id": "C149", "title": "The log of a trace holds its events, one line each, and can be read back", "statement": "A traced job running in a pod prints every event it is sent as one line of JSON. Whatever the events hold (line breaks and control characters in paths, for instance), the lines of the log are exactly the events, in order. The line of an event holds the server it came from and, byte for byte, what that server sent; whoever reads the log back has the same events in the same order, with lines of other programs in between passed over, and is never broken off by them.", "quantifier": "all lists of events and endpoints; all system calls and arguments; all interleavings with lines that are no messages; all contents of the reader's and writer's memory beside the events", "why_tests_cant": "A test logs a handful of ordinary events; whether some path, argument or label can break a line in two, be escaped differently the second time, or end the reader early depends on all texts an event may hold and all lines found between them.", "anchors": ["cmd/client.go:330", "pkg/client/endpoint.go:33", "pkg/client/endpoint.go:41", "internal/pkg/controller/trace.go:59", "hack/tools/pretty_logs.go:main", "pkg/event/trace.go:TraceEvent.UnmarshalJSON"]}
{"id": "C150", "title": "A trace resource is stored as it is written", "statement": "A Trace resource whose fields are those of the API and are of their types is accepted by the API server and stored unchanged, and the controller is told of exactly what was asked for; whatever is stored is made of the API's fields and of their types; a field the API does not have is not dropped silently.", "quantifier": "all resources, that is all JSON documents for the request: any fields in any order, any selectors, conditions, lists, texts and numbers; both resource definitions (manifests and Helm chart)", "why_tests_cant": "Tests create a few resources, mostly without rarely used fields; that every field survives, with every value, needs the schema and the Go types to be compared for all documents.", "anchors": ["config/crd/bases/tools.swoll.criticalstack.com_traces.yaml", "chart/crds/crds.yaml", "api/v1alpha1/trace_types.go:TraceSpec", "internal/pkg/controller/trace.go:SetupWithManager"]}
{"id": "C151", "title": "A trace that cannot be understood does no harm to the others", "statement": "Whatever traces users have stored, the controller is told of every trace that can be understood; one user's trace never keeps the controller from those of others.", "quantifier": "all sets of stored traces that passed the API server", "why_tests_cant": "The harm is done by a value nobody tests with, in an object that belongs to somebody else; it has to be excluded for all contents of the cluster.", "anchors": ["chart/crds/crds.yaml", "config/crd/bases/tools.swoll.criticalstack.com_traces.yaml", "api/v1alpha1/trace_types.go:TraceSpec", "internal/pkg/controller/trace.go:Reconcile"]}
{"id": "C152", "title": "Every trace that is accepted gets its job", "statement": "A Trace resource whose name the API server accepts is given a job: the names made of the trace's (of the job, its container and the labels of its pod) are ones the API server accepts too, so that the controller, undisturbed, has the job created and the trace running after two looks. This fails for trace names with a dot or with more than 60 characters, both of which are legal: the job is refused for ever, and the trace stays pending.", "quantifier": "every name of a resource, all random name suffixes, and every sequence of runs of the controller with what others do in between and the failures of API calls", "why_tests_cant": "The rules for names are met by the API server only, and differ between kinds of objects; a test picks a few names. That nothing ever comes of a trace ranges over endless histories.", "anchors": ["internal/pkg/controller/trace.go: createJobResource, Reconcile", "config/crd/bases/tools.swoll.criticalstack.com_traces.yaml"]}
{"id": "C153", "title": "The chart can be installed under every release name, also twice", "statement": "`helm install` of the chart succeeds for every release name helm accepts, and beside other installations of the chart. It fails for release names that contain a dot or begin with a digit, and for those of more than 50 characters that do not contain the chart's name; a second installation is refused in the same namespace whatever its values, and in another one if the full names or the node ports are equal.", "quantifier": "all release names, namespaces and values of the chart", "why_tests_cant": "Templates are rendered for a few release names in tests; the API server's rules for names differ by kind of object.", "anchors": ["chart/templates/_helpers.tpl: swoll.fullname", "chart/templates/server-service.yaml", "chart/templates/controller-role.yaml", "chart/values.yaml"]}
{"id": "C154", "title": "The parts of an installation find each other", "statement": "The service, the daemon set and the deployment of a release select the pods of their own component of that release and no others; an installation can be upgraded to a later version of chart or program; and the jobs of the controller ask the servers where they listen. The upgrade fails for every change of version, and the jobs ask elsewhere whenever the target port is not 9095.", "quantifier": "all values, releases, versions, and clusters of nodes", "why_tests_cant": "Selectors and ports are spread over templates and the program; that no other pods are selected ranges over all other releases.", "anchors": ["chart/templates/_helpers.tpl: swoll.labels", "chart/templates/server-daemonset.yaml", "chart/templates/server-service.yaml", "chart/templates/controller-deployment.yaml", "cmd/controller.go: cmdController"]}
{"id": "C155", "title": "The programs have the rights they need and no others", "statement": "The account of the server may list and watch pods and do nothing but read pods; the account of the controller may do all that it asks the API server for, for traces of every namespace, and nothing beyond nodes (to read), jobs, traces and, in its own namespace, config maps and events; no other account gets any rights. It fails for the events about traces outside the namespace of the release, for the proxy in front of the metrics, and for installations without accounts of their own.", "quantifier": "all values, releases, namespaces of traces, accounts and requests", "why_tests_cant": "That a right is not given cannot be shown by requests that work; a missing right shows in a cluster with that namespace only.", "anchors": ["chart/templates/controller-cluster-role.yaml", "chart/templates/controller-role.yaml", "chart/templates/server-cluster-role.yaml", "chart/templates/_helpers.tpl: serviceAccountName", "internal/pkg/controller/trace.go: Reconcile", "cmd/controller.go: cmdController"]}
{"id": "C156", "title": "The command line means what is written", "statement": "A command is found by its words, whatever follows. It runs with exactly the values that were given to its flags, whether as --flag value, --flag=value, -f value, -fvalue or in a cluster of letters, whatever is in the values, and with the other words in order; after -- all is words. Of several values for a flag the last is used, and a flag that is not given has its default. What means nothing is refused: unknown flags, missing values, values of the wrong type. The client in the job of a trace, the server and the controller of the chart so get the values written for them. Flags may come before or after the command.", "quantifier": "all commands; all lists of flags and words, in all ways to write them; all values", "why_tests_cant": "Tests run a few command lines. Values may begin with dashes, contain equals signs, be empty or equal to a command's name, and there are as many lines as lists of words.", "anchors": ["cmd/root.go:Execute,init", "cmd/client.go:init", "cmd/trace.go:init", "cmd/controller.go:init", "cmd/server.go:init", "cmd/top.go:init", "cmd/selftest.go:init", "pkg/kubesc/api/v1alpha1/trace.go", "chart/templates/server-daemonset.yaml", "chart/templates/controller-deployment.yaml"]}
{"id": "C157", "title": "A program that asks the kernel for calls is shown them", "statement": "A program built on the library that adds a rule for each of some system calls and lets the probe run is given each completed call of those kinds, of any thread on the machine, exactly once and in the order of completion, with the container its namespace belongs to; the example programs shipped with the project are such programs and show the events they ask for.", "quantifier": "all sets of calls asked for, all interleavings of the calls of all threads with the callbacks of the program, all containers known at each callback", "why_tests_cant": "Which calls are made, by which threads and how they interleave with the callbacks cannot be enumerated; that a program shows nothing ever is a statement about all histories, which no run can show.", "anchors": ["examples/basic-trace/main.go:main", "examples/kubernetes-basic/main.go:main", "pkg/kernel/filter.go:Enable", "pkg/kernel/filter.go:FilterSelf", "internal/bpf/probe.c:swoll__run_nfilter"]}
{"id": "C158", "title": "A flag that a command accepts is a flag that it heeds", "statement": "Whatever is on the command line, a command that is run finds each flag it asks for, with the type it asks for, so none ends because of its own flags. What it learns of a flag is what was written, in whichever of the accepted spellings: the last value of a text or a switch, all the values of a list, and the documented preset if the flag was not given. A flag or a word that the command accepts makes a difference to what it learns.", "quantifier": "every command line made of flags in any spelling, order and number and of other words; every command; every value", "why_tests_cant": "The lines are unbounded and the flags interact through repetition and inheritance; that a flag makes no difference is a statement about all lines with and without it.", "anchors": ["cmd/client.go: clientCreate, parseStaticEndpointsArg", "cmd/controller.go: cmdController", "cmd/loader.go: loadBPFargs", "cmd/offsetter.go: SetOffsetsFromArgs", "cmd/root.go: rootCmd", "cmd/selftest.go: cmdSelfTest", "cmd/server.go: runServer", "cmd/top.go: cmdTop", "cmd/trace.go: cmdTrace"]}
{"id": "C159", "title": "The dashboard shows every call of what was chosen, once", "statement": "Whatever containers, classes and groups are chosen on the dashboard, each of its panels has one line for each thing there is a call of among what was chosen, and the line is the sum over all those calls, each counted once: those that succeeded in the panels of totals and those that failed in the panels of errors. A panel with room for a number of lines has the largest.", "quantifier": "all sets of series that the servers export, with any rates and label values; all choices of the variables: all, one or several values; all panels", "why_tests_cant": "The names of pods and containers and the choices are unbounded and are pasted into regular expressions; that no call is lost or counted twice is a statement about all of them.", "anchors": ["internal/deploy/dashboard/dashboard.json: panels, templating", "cmd/prometheus.go: newPrometheusWorker, Collect"]}
{"id": "C160", "title": "A container is known by the namespace its calls are reported under", "statement": "The number that a listed container is known by is the one under which the kernel reports the calls of the processes in it and of no others: the process is the one that the runtime names in the JSON of the container's status, however it is written, and the number is that of the file of this process below the directory that was given, however the directory is written. A container whose process cannot be found makes no difference to the others.", "quantifier": "all answers of the runtime, all ways to write their JSON, all directories, all file systems, all histories of processes and namespaces, all threads", "why_tests_cant": "The answer of the runtime, the files of the kernel and the numbers in the events come from three programs; a test has one container whose main process never leaves its namespace, and a runtime that always writes a number.", "anchors": ["pkg/topology/kubernetes.go: getContainerPid, criContainers", "pkg/topology/ns.go: getNamespaceIno, getPidNamespace", "internal/bpf/probe.c: fill_namespaces"]}
{"id": "C161", "title": "Who watches a job is shown the calls of the processes in the pods it selects", "statement": "A call that a job's request names, made by a process that lives in the pid namespace of a container of a pod that the request selects, is handed to everyone who watches the job, with the names of the container, the pod and the namespace; and what a watcher of a job is handed was called by a process that lives in the pid namespace of such a container.", "quantifier": "all histories of the cluster, the server and its clients, all histories of the processes and namespaces on the machine, all answers of the runtime, all threads, all calls", "why_tests_cant": "It goes from the fork of a process on the machine over the kernel, the proc file system, the runtime, the API server and the daemon to the client; each step has a schedule of its own, and a test runs one of each.", "anchors": ["pkg/topology/kubernetes.go: criContainers, connectKube", "pkg/topology/ns.go: getPidNamespace", "pkg/topology/hub.go: RunJob, Run", "internal/bpf/probe.c: swoll__event_fill_namespaces", "cmd/server.go: cmdServer"]}
