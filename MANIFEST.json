{
 "claims": [
  {
   "property": "C01",
   "status": "proved",
   "theorems": [
    "Swoll.Props.PubSub.c01_publish",
    "Swoll.Props.PubSub.c01_traverser"
   ],
   "note": "For every history in which no unsubscriber is called twice (see C05), every sort with the contract of sort.Sort, every map order and random source. c01_traverser covers traversers that branch."
  },
  {
   "property": "C02",
   "status": "proved",
   "theorems": [
    "Swoll.Props.PubSub.c02_shard_once"
   ],
   "note": "For every history without repeated unsubscriber calls, every map order and random source."
  },
  {
   "property": "C03",
   "status": "proved",
   "theorems": [
    "Swoll.Props.PubSub.c03_deterministic",
    "Swoll.Props.PubSub.c03_order_unique",
    "Swoll.Props.PubSub.c03_default_hash_violated"
   ],
   "note": "For a PubSub configured with a routing hash. Without one (as the hub uses it) routing is random: c03_default_hash_violated."
  },
  {
   "property": "C04",
   "status": "proved",
   "theorems": [
    "Swoll.Props.PubSub.c04_active_after_unsubscribe",
    "Swoll.Props.PubSub.c04_pruned",
    "Swoll.Props.PubSub.c04_empty"
   ],
   "note": "For every history without repeated unsubscriber calls."
  },
  {
   "property": "C05",
   "status": "partial",
   "theorems": [
    "Swoll.Props.PubSub.c05_harmless_partial",
    "Swoll.Props.PubSub.c05_second_call_panics",
    "Swoll.Props.PubSub.c05_double_unsubscribe_violated",
    "Swoll.Props.PubSub.c05_steals_subscription_violated"
   ],
   "note": "The statement is false of the code; proved when the second call is harmless and exactly when it panics."
  },
  {
   "property": "C06",
   "status": "proved",
   "theorems": [
    "Swoll.Props.Hash.c06_prefix",
    "Swoll.Props.Hash.c06_length",
    "Swoll.Props.Hash.c06_nonzero",
    "Swoll.Props.Hash.c06_empty_component",
    "Swoll.Props.Hash.c06_empty_component_superset"
   ],
   "note": "For every checksum function."
  },
  {
   "property": "C07",
   "status": "proved",
   "theorems": [
    "Swoll.Props.Hash.c07_path",
    "Swoll.Props.Hash.c07_attach",
    "Swoll.Props.Hash.c07_near_names",
    "Swoll.Props.Hash.c07_siblings",
    "Swoll.Props.Hash.c07_collision_violated"
   ],
   "note": "Under the collision-freeness proviso of the statement; c07_collision_violated shows the proviso is needed for valid pod names with the real CRC-64. c07_near_names and c07_siblings discharge the proviso for names that differ only within eight neighbouring bytes."
  },
  {
   "property": "C08",
   "status": "proved",
   "theorems": [
    "Swoll.Props.Hub.c08_indexes",
    "Swoll.Props.Hub.c08_mirror",
    "Swoll.Props.Hub.c08_no_leftovers"
   ],
   "note": "For every history of hub operations, including events and kernel filter calls in any interleaving."
  },
  {
   "property": "C09",
   "status": "proved",
   "theorems": [
    "Swoll.Props.Hub.c09_delete"
   ],
   "note": "Fatal exit unreachable; unknown id is an error that leaves the hub unchanged."
  },
  {
   "property": "C10",
   "status": "proved",
   "theorems": [
    "Swoll.Props.Hub.c10_only_own",
    "Swoll.Props.Hub.c10_reference_count"
   ],
   "note": "Deletion as one critical section (the hub lock); the window between a job's PushJob and AddSyscall is covered by treating them as separate operations."
  },
  {
   "property": "C100",
   "status": "partial",
   "theorems": [
    "Swoll.Props.Startup.c100_each_node",
    "Swoll.Props.Startup.c100_one_node_partial",
    "Swoll.Props.Startup.c100_several_nodes_violated",
    "Swoll.Props.Startup.c100_ipv6_violated",
    "Swoll.Props.Startup.c100_no_address_violated"
   ],
   "note": "The list of endpoints is right for every cluster (c100_each_node), but the jobs can use it only if it has one element without a colon: with two or more nodes or an IPv6 address every job's client exits. A node without address crashes the controller."
  },
  {
   "property": "C101",
   "status": "partial",
   "theorems": [
    "Swoll.Props.Startup.c101_log_level_partial",
    "Swoll.Props.Startup.c101_output_violated"
   ],
   "note": "Proved for log levels here and for system calls in C94 (c94_starts). Violated for --output: with an unknown format the trace runs and prints nothing, for every history."
  },
  {
   "property": "C102",
   "status": "partial",
   "theorems": [
    "Swoll.Props.ClientCmd.c102_created_partial",
    "Swoll.Props.ClientCmd.c102_stopped_partial",
    "Swoll.Props.ClientCmd.c102_no_other",
    "Swoll.Props.ClientCmd.c102_all_or_none_violated",
    "Swoll.Props.ClientCmd.c102_nowhere_violated"
   ],
   "note": "Success, the extent of a failure and isolation are proved. Violated: a failure leaves the job on the endpoints before it; without endpoints nothing is done and success reported."
  },
  {
   "property": "C103",
   "status": "partial",
   "theorems": [
    "Swoll.Props.ClientCmd.c103_last_partial",
    "Swoll.Props.ClientCmd.c103_alone_partial",
    "Swoll.Props.ClientCmd.c103_others_violated",
    "Swoll.Props.ClientCmd.c103_refused_violated",
    "Swoll.Props.ClientCmd.c103_early_interrupt_violated",
    "Swoll.Props.ClientCmd.c103_impatient_violated"
   ],
   "note": "Proved for the last endpoint, so for one. Violated, for every history in which all endpoints stream: the others keep the job."
  },
  {
   "property": "C104",
   "status": "partial",
   "theorems": [
    "Swoll.Props.ClientCmd.c104_true_partial",
    "Swoll.Props.ClientCmd.c104_nothing_else",
    "Swoll.Props.ClientCmd.c104_complete_partial",
    "Swoll.Props.ClientCmd.c104_oneshot_alone_partial",
    "Swoll.Props.ClientCmd.c104_long_message_violated",
    "Swoll.Props.ClientCmd.c104_oneshot_violated"
   ],
   "note": "Proved for websockets that stay open and messages within the limit that can be decoded, for watch and for --oneshot with one endpoint. Violated beyond 4096 bytes and with --oneshot on several endpoints."
  },
  {
   "property": "C105",
   "status": "partial",
   "theorems": [
    "Swoll.Props.ClientCmd.c105_deleted_partial",
    "Swoll.Props.ClientCmd.c105_failed_partial",
    "Swoll.Props.ClientCmd.c105_all_violated"
   ],
   "note": "Success and the extent of a failure are proved. Violated: endpoints after the first failure are not tried."
  },
  {
   "property": "C106",
   "status": "partial",
   "theorems": [
    "Swoll.Props.ClientCmd.c106_ends",
    "Swoll.Props.ClientCmd.c106_ends_well_partial",
    "Swoll.Props.ClientCmd.c106_watch_partial",
    "Swoll.Props.ClientCmd.c106_watch_histories",
    "Swoll.Props.ClientCmd.c106_one_swoop_violated",
    "Swoll.Props.ClientCmd.c106_impatient_violated",
    "Swoll.Props.ClientCmd.c106_lost_signal_violated"
   ],
   "note": "Proved: after an interrupt it comes to its end; watch has ended exactly if a signal came after it began to wait for one. Violated: --oneshot never ends by itself; a second interrupt panics; watch can lose a signal."
  },
  {
   "property": "C107",
   "status": "proved",
   "theorems": [
    "Swoll.Props.ClientCmd.c107_created_is_listed",
    "Swoll.Props.ClientCmd.c107_deleted_is_not_listed",
    "Swoll.Props.ClientCmd.c107_each_reported"
   ],
   "note": ""
  },
  {
   "property": "C108",
   "status": "partial",
   "theorems": [
    "Swoll.Props.Session.c108_idle_partial",
    "Swoll.Props.Session.c108_idle_server_partial",
    "Swoll.Props.Session.c108_idle_client_partial",
    "Swoll.Props.Session.c108_dead",
    "Swoll.Props.Session.c108_unsubscribed",
    "Swoll.Props.Session.c108_forgotten",
    "Swoll.Props.Session.c108_not_forgotten_partial",
    "Swoll.Props.Session.c108_slow_reader_violated"
   ],
   "note": "Held for answers within less than 3 s (server) or 6 s (client); a client that takes longer loses its stream although 30 s is the stated wait."
  },
  {
   "property": "C109",
   "status": "partial",
   "theorems": [
    "Swoll.Props.Tracer.c109_true_partial",
    "Swoll.Props.Tracer.c109_history",
    "Swoll.Props.Tracer.c109_cli"
   ],
   "note": "True event, named call, announced and resident container, order; the text of a line in format cli. Missing: fields that events misreport (C36, C39, C76)."
  },
  {
   "property": "C11",
   "status": "proved",
   "theorems": [
    "Swoll.Props.Hub.c11_dropped",
    "Swoll.Props.Hub.c11_routing"
   ],
   "note": "Publishing happens only when at least one registration exists for the pair; see the property's wording."
  },
  {
   "property": "C110",
   "status": "partial",
   "theorems": [
    "Swoll.Props.Tracer.c110_once_partial",
    "Swoll.Props.Tracer.c110_complete_partial",
    "Swoll.Props.Tracer.c110_execve_partial",
    "Swoll.Props.Tracer.c110_once_violated"
   ],
   "note": "Once if names and announcements are distinct; printed if rules are not refused. Violated otherwise, with witnesses."
  },
  {
   "property": "C111",
   "status": "partial",
   "theorems": [
    "Swoll.Props.Tracer.c111_survives_partial",
    "Swoll.Props.Tracer.c111_unknown_violated",
    "Swoll.Props.Tracer.c111_undecodable_violated",
    "Swoll.Props.Tracer.c111_format_violated"
   ],
   "note": "Survives everything if all names can be decoded; other names and formats are accepted and end the program or print nothing."
  },
  {
   "property": "C112",
   "status": "proved",
   "theorems": [
    "Swoll.Props.DeepCopy.c112_trace",
    "Swoll.Props.DeepCopy.c112_list",
    "Swoll.Props.DeepCopy.c112_spec",
    "Swoll.Props.DeepCopy.c112_status",
    "Swoll.Props.DeepCopy.c112_object",
    "Swoll.Props.DeepCopy.c112_nil"
   ],
   "note": "Over a heap of cells; owner references and managed fields of the library's metadata are left out, its own copies follow their contract."
  },
  {
   "property": "C113",
   "status": "partial",
   "theorems": [
    "Swoll.Props.Smp.c113_serial",
    "Swoll.Props.Smp.c113_never_more",
    "Swoll.Props.Smp.c113_exact_partial",
    "Swoll.Props.Smp.c113_lost_violated",
    "Swoll.Props.Smp.c113_goes_down_violated",
    "Swoll.Props.Smp.c113_pruned_violated"
   ],
   "note": "Never more than returned, in every interleaving; exact if no two handlers hold a copy of the entry at once. The code uses neither lock nor atomic: n calls at once count as one (for every n), counts fall, deleted entries come back."
  },
  {
   "property": "C114",
   "status": "partial",
   "theorems": [
    "Swoll.Props.Smp.c114_serial",
    "Swoll.Props.Smp.c114_every",
    "Swoll.Props.Smp.c114_exact_partial",
    "Swoll.Props.Smp.c114_burst_violated",
    "Swoll.Props.Smp.c114_starved_violated"
   ],
   "note": "Exact for rates 0 and 1 in every interleaving, and for any rate if no two CPUs are at the counter at once. Otherwise violated for every rate: all of n calls at once pass, or none."
  },
  {
   "property": "C115",
   "status": "proved",
   "theorems": [
    "Swoll.Props.Smp.c115_pairing",
    "Swoll.Props.Smp.c115_at_once"
   ],
   "note": ""
  },
  {
   "property": "C116",
   "status": "proved",
   "theorems": [
    "Swoll.Props.Syscalls.c116_by_class",
    "Swoll.Props.Syscalls.c116_by_group",
    "Swoll.Props.Syscalls.c116_named",
    "Swoll.Props.Syscalls.c116_one_place"
   ],
   "note": ""
  },
  {
   "property": "C117",
   "status": "partial",
   "theorems": [
    "Swoll.Props.Server.c117_answers",
    "Swoll.Props.Server.c117_error_violated"
   ],
   "note": "An answer of 500 does not mean that nothing was done: the job can be out of the list although its deletion failed."
  },
  {
   "property": "C118",
   "status": "partial",
   "theorems": [
    "Swoll.Props.Moment.c118_unchanged_partial",
    "Swoll.Props.Moment.c118_changed_violated"
   ],
   "note": "Registers are kept at entry and always right; memory is copied at exit, so a string that another thread replaces meanwhile is reported instead, for every string field of every call."
  },
  {
   "property": "C119",
   "status": "partial",
   "theorems": [
    "Swoll.Props.Sampled.c119_every_nth_partial",
    "Swoll.Props.Sampled.c119_listed",
    "Swoll.Props.Sampled.c119_counted",
    "Swoll.Props.Sampled.c119_violated",
    "Swoll.Props.Serving.c87_placed"
   ],
   "note": "Proved for jobs whose rate is below those of all other sampled jobs on the same calls. Otherwise the difference of the rates is used instead of the rate; witness on a daemon history."
  },
  {
   "property": "C12",
   "status": "partial",
   "theorems": [
    "Swoll.Props.Hub.c12_at_most_once_partial",
    "Swoll.Props.Hub.c12_violated"
   ],
   "note": "False in general: duplicate start notifications or duplicate syscalls register twice; the violation is proved."
  },
  {
   "property": "C120",
   "status": "partial",
   "theorems": [
    "Swoll.Props.Cluster.c120_selected_partial",
    "Swoll.Props.Cluster.c120_resource_partial",
    "Swoll.Props.Cluster.c120_violated"
   ],
   "note": "Exact for label and field maps that the API server accepts; match expressions are ignored by the code (c120_violated)."
  },
  {
   "property": "C121",
   "status": "partial",
   "theorems": [
    "Swoll.Props.Site.c121_shown",
    "Swoll.Props.Site.c121_never_shown",
    "Swoll.Props.Cluster.c121_watched",
    "Swoll.Props.Cluster.c121_client_pods_violated"
   ],
   "note": "The server watches exactly the pods not labelled swoll=false, and every delivery of every history is of such a pod. The pods the controller starts for traces lose the label (violated)."
  },
  {
   "property": "C122",
   "status": "partial",
   "theorems": [
    "Swoll.Props.Site.c122_told",
    "Swoll.Props.Site.c122_current_partial",
    "Swoll.Props.Site.c122_server_partial",
    "Swoll.Props.Site.c122_job_partial"
   ],
   "note": "For containers the runtime lists throughout; changes of pods while the connection is lost are C123, containers that come and go are C22."
  },
  {
   "property": "C123",
   "status": "partial",
   "theorems": [
    "Swoll.Props.Site.c123_survives_partial",
    "Swoll.Props.Site.c123_violated",
    "Swoll.Props.Site.c123_recreated_violated"
   ],
   "note": "Holds if no pod changes while an observer that has seen pods is cut off. A pod deleted meanwhile ends the process, one recreated meanwhile is not announced, in every history."
  },
  {
   "property": "C124",
   "status": "partial",
   "theorems": [
    "Swoll.Props.Site.c124_selected_partial",
    "Swoll.Props.Site.c124_relabelled_violated"
   ],
   "note": "The pod was selected at some time; a pod no longer selected can still be shown (witness). Match expressions as in C120."
  },
  {
   "property": "C125",
   "status": "partial",
   "theorems": [
    "Swoll.Props.Watch.c125_line_partial",
    "Swoll.Props.Watch.c125_arguments_partial",
    "Swoll.Props.Watch.c125_one_line_partial",
    "Swoll.Props.Watch.c125_numbers_violated",
    "Swoll.Props.Watch.c125_written_violated"
   ],
   "note": "Header and arguments as made; one line if no string or buffer holds a line end. Violated: for 42 of 59 calls the line holds formatter complaints, and bytes a program writes reach the terminal as they are."
  },
  {
   "property": "C126",
   "status": "partial",
   "theorems": [
    "Swoll.Props.SiteServe.c126_shown_partial",
    "Swoll.Props.SiteServe.c126_neighbour_violated"
   ],
   "note": "From the pod to the client: proved for a pod that stays, unsampled requests and rules the kernel does not refuse; false when another job loses the pod (witness)."
  },
  {
   "property": "C127",
   "status": "partial",
   "theorems": [
    "Swoll.Props.CmdLine.c127_top",
    "Swoll.Props.CmdLine.c127_hub",
    "Swoll.Props.CmdLine.c127_trace_partial",
    "Swoll.Props.CmdLine.c127_words_violated",
    "Swoll.Props.CmdLine.c127_twice_violated"
   ],
   "note": "top in full, with the observer of trace's hub. trace for labels separated by commas and given once; labels that are words of their own are refused and of a label given twice the last counts (violations proved)."
  },
  {
   "property": "C128",
   "status": "partial",
   "theorems": [
    "Swoll.Props.Order.c128_shown_partial"
   ],
   "note": "Composes C72 and C126. Missing: what is missing in them: several endpoints and hosts, sample rates, execve, pods that change, paths whose hashes collide."
  },
  {
   "property": "C129",
   "status": "proved",
   "theorems": [
    "Swoll.Props.Wire.c129_request",
    "Swoll.Props.Wire.c129_created",
    "Swoll.Props.Wire.c129_jobs",
    "Swoll.Props.Wire.c129_fields",
    "Swoll.Props.Wire.c129_labels",
    "Swoll.Props.Wire.c129_missing"
   ],
   "note": "For durations above -2^63 ns, the only ones time.ParseDuration yields. encoding/json and time are modelled as written, over Unicode characters."
  },
  {
   "property": "C13",
   "status": "proved",
   "theorems": [
    "Swoll.Props.Hub.c13_lowest",
    "Swoll.Props.Hub.c13_lowest_unique"
   ],
   "note": ""
  },
  {
   "property": "C130",
   "status": "partial",
   "theorems": [
    "Swoll.Props.Wire.c130_accepted_partial",
    "Swoll.Props.Wire.c130_violated"
   ],
   "note": "Violated: null, misspelt fields and text after the object are accepted. Proved: exactly which bodies are accepted."
  },
  {
   "property": "C131",
   "status": "partial",
   "theorems": [
    "Swoll.Props.Rule.c131_decides_partial",
    "Swoll.Props.Rule.c131_violated"
   ],
   "note": "Violated: rules for a process or for a namespace alone, and rules that count read, are accepted and have no effect; exactly those. Others decide as said."
  },
  {
   "property": "C132",
   "status": "partial",
   "theorems": [
    "Swoll.Props.EventText.c132_limit",
    "Swoll.Props.EventText.c132_fits_partial",
    "Swoll.Props.EventText.c132_execve_text",
    "Swoll.Props.EventText.c132_execve_violated",
    "Swoll.Props.EventText.c132_mprotect_violated"
   ],
   "note": "Every event of every call whose arguments lie inside the event fits with a container of 1850 bytes (740 for mount, 390 for execve, 1850 for execve with ordinary text). False beyond that: execve with control characters and a usual container, and every mprotect of 3072 bytes or more, whatever is in memory."
  },
  {
   "property": "C133",
   "status": "partial",
   "theorems": [
    "Swoll.Props.EventText.c133_nothing_else_partial",
    "Swoll.Props.EventText.c133_mprotect_violated",
    "Swoll.Props.EventText.c133_nanosleep_violated"
   ],
   "note": "Holds for every event whose arguments lie inside the event, of every call but nanosleep. False for nanosleep, whose message carries an address of the daemon's memory, and for mprotect of more than 256 bytes, whose message carries the bytes that follow the event."
  },
  {
   "property": "C134",
   "status": "partial",
   "theorems": [
    "Swoll.Props.EventRead.c134_receive",
    "Swoll.Props.EventRead.c134_nanosleep",
    "Swoll.Props.EventRead.c134_readable_partial",
    "Swoll.Props.EventRead.c134_header_partial",
    "Swoll.Props.EventRead.c134_arguments_partial",
    "Swoll.Props.EventRead.c134_whole"
   ],
   "note": "From the text of the message to the event, through models of JSON, base64, number and string syntax and every argument type. The exceptions are those of C70 (refused IPv6 options, ill-formed text, unknown errors, what flag sets and addresses keep). Missing: the two times of nanosleep, which are addresses."
  },
  {
   "property": "C135",
   "status": "partial",
   "theorems": [
    "Swoll.Props.EventRead.c135_crash_only_partial",
    "Swoll.Props.EventRead.c135_with_call_partial",
    "Swoll.Props.EventRead.c135_refused",
    "Swoll.Props.EventRead.c135_server",
    "Swoll.Props.EventRead.c135_object_violated",
    "Swoll.Props.EventRead.c135_null_violated"
   ],
   "note": "False: an object without a system call makes the client dereference a nil pointer, and null is handed on as a missing event. Proved: nothing else crashes it, and no message of this server does."
  },
  {
   "property": "C136",
   "status": "partial",
   "theorems": [
    "Swoll.Props.WatchStream.c136_line_partial",
    "Swoll.Props.WatchStream.c136_stream_partial",
    "Swoll.Props.WatchStream.c136_history_partial",
    "Swoll.Props.WatchStream.c136_crash_violated"
   ],
   "note": "Composes C36, C39, C68, C125, C132, C134 and C104. Exact about which ordinary calls are refused (named options of IPv6). Missing: what these miss: misreported arguments, nanosleep's times, getcwd, mprotect of more than 256 bytes, negative sizes, long container descriptions. A message of another program can crash the client (violated)."
  },
  {
   "property": "C137",
   "status": "proved",
   "theorems": [
    "Swoll.Props.Pages.c137_stream",
    "Swoll.Props.Pages.c137_every"
   ],
   "note": "Over the model of the router and of URL escaping (C74). The browser is taken to send the path that location.pathname has."
  },
  {
   "property": "C138",
   "status": "partial",
   "theorems": [
    "Swoll.Props.Answers.c138_create_partial",
    "Swoll.Props.Answers.c138_delete_partial",
    "Swoll.Props.Answers.c138_list_partial",
    "Swoll.Props.Answers.c138_read_partial",
    "Swoll.Props.Answers.c138_page",
    "Swoll.Props.Answers.c138_label_violated",
    "Swoll.Props.Answers.c138_handshake_violated"
   ],
   "note": "Status and JSON body are proved for every outcome. Violated: the label is set after the headers are sent, so no JSON answer is labelled as JSON; a request for a stream that is no handshake gets the status and text of the library with the JSON of the error behind it."
  },
  {
   "property": "C139",
   "status": "partial",
   "theorems": [
    "Swoll.Props.Answers.c139_create",
    "Swoll.Props.Answers.c139_deleted",
    "Swoll.Props.Answers.c139_list",
    "Swoll.Props.Answers.c139_reason_violated"
   ],
   "note": "Proved for creating jobs (the reason is in the error, as JSON in the complaint of fmt about an extra argument). Violated for deleting jobs and opening streams: the reason is dropped."
  },
  {
   "property": "C14",
   "status": "partial",
   "theorems": [
    "Swoll.Props.Hub.c14_actual",
    "Swoll.Props.Hub.c14_lowest_partial",
    "Swoll.Props.Hub.c14_violated",
    "Swoll.Props.Hub.c14_shared_counter_violated"
   ],
   "note": "Exact behaviour proved for single registrations; the claimed share holds only for the lowest rate; violated on the code comment's own example."
  },
  {
   "property": "C140",
   "status": "partial",
   "theorems": [
    "Swoll.Props.Paths.c140_slices",
    "Swoll.Props.Paths.c140_combine",
    "Swoll.Props.Paths.c140_publish",
    "Swoll.Props.Paths.c140_reuse_violated"
   ],
   "note": "Proved for paths that are followed once, which is how the package's own traversers use them. Violated when the same combined paths are handed out again: they are used up."
  },
  {
   "property": "C141",
   "status": "partial",
   "theorems": [
    "Swoll.Props.Top.c141_rows",
    "Swoll.Props.Top.c141_hosts",
    "Swoll.Props.Top.c141_dots_needed",
    "Swoll.Props.Top.c141_red",
    "Swoll.Props.Top.c141_graph",
    "Swoll.Props.Top.c141_drawn_partial",
    "Swoll.Props.Top.c141_drawn_violated"
   ],
   "note": "The table is proved for all histories with counts up to 2^53. Violated for the graphs: once they are full the newest value is kept but not drawn. Which metrics share a row is C73."
  },
  {
   "property": "C142",
   "status": "proved",
   "theorems": [
    "Swoll.Props.Task.c142_process_number",
    "Swoll.Props.Task.c142_session",
    "Swoll.Props.Task.c142_namespaces"
   ],
   "note": "Kernels since 5.0 with the layout the probe was compiled for; exec by a thread other than the first is not among the acts."
  },
  {
   "property": "C143",
   "status": "partial",
   "theorems": [
    "Swoll.Props.Task.c143_pid_namespace_partial",
    "Swoll.Props.Task.c143_unshare_violated",
    "Swoll.Props.Task.c143_setns_violated",
    "Swoll.Props.Task.c143_unreadable_violated"
   ],
   "note": "Holds for every thread that has not itself called unshare or setns for pid namespaces; after unshare(CLONE_NEWPID) the calls of the thread are attributed to the new namespace, so that a process leaves the trace of its container at will."
  },
  {
   "property": "C144",
   "status": "partial",
   "theorems": [
    "Swoll.Props.Walk.c144_all_once_partial",
    "Swoll.Props.Walk.c144_values",
    "Swoll.Props.Walk.c144_ends_partial",
    "Swoll.Props.Walk.c144_prune_others",
    "Swoll.Props.Walk.c144_prune_partial",
    "Swoll.Props.Walk.c144_missed_violated",
    "Swoll.Props.Walk.c144_twice_violated",
    "Swoll.Props.Walk.c144_endless_violated",
    "Swoll.Props.Walk.c144_prune_violated"
   ],
   "note": "Holds if nothing that is counted during the read shares a bucket with another metric; for any two metrics that share one, a read can miss one, report one twice, or go on without end, and pruning can leave one. Values and metrics of other namespaces hold without the condition."
  },
  {
   "property": "C145",
   "status": "partial",
   "theorems": [
    "Swoll.Props.Bounded.c145_events_partial",
    "Swoll.Props.Bounded.c145_counts_partial",
    "Swoll.Props.Bounded.c145_held",
    "Swoll.Props.Bounded.c145_blind_violated",
    "Swoll.Props.Bounded.c145_no_return_violated",
    "Swoll.Props.Bounded.c145_exit_group_violated",
    "Swoll.Props.Bounded.c145_uncounted_violated",
    "Swoll.Props.Bounded.c145_new_kind_violated"
   ],
   "note": "Holds as long as at most 65535 threads are inside a call at once, ended ones included, and at most 65535 kinds of calls are counted. Refuted beyond that, for every size of the tables; exit_group fills the table of calls for good."
  },
  {
   "property": "C146",
   "status": "partial",
   "theorems": [
    "Swoll.Props.Ring.c146_cpu_order",
    "Swoll.Props.Ring.c146_all",
    "Swoll.Props.Ring.c146_stays_partial",
    "Swoll.Props.Ring.c146_one_cpu_partial",
    "Swoll.Props.Ring.c146_room",
    "Swoll.Props.Ring.c146_accounted",
    "Swoll.Props.Ring.c146_comes_to_rest",
    "Swoll.Props.Ring.c146_moved_violated",
    "Swoll.Props.Ring.c146_starved_violated"
   ],
   "note": "Order holds for each CPU, so for a thread that stays on one and for a machine with one; all that is written is given, waits or is counted. Order fails between CPUs, also for one thread that moves, and a busy CPU holds up all others."
  },
  {
   "property": "C147",
   "status": "partial",
   "theorems": [
    "Swoll.Props.RuleText.c147_faithful",
    "Swoll.Props.RuleText.c147_listing_partial",
    "Swoll.Props.RuleText.c147_wide_violated"
   ],
   "note": "Faithful for every rule of known calls; after any history of the helpers the listing is exactly what was asked for, with its counts. Violated for a rule made from the options for all calls of a namespace: it is shown as one for read and matches nothing."
  },
  {
   "property": "C148",
   "status": "partial",
   "theorems": [
    "Swoll.Props.Shutdown.c148_ends",
    "Swoll.Props.Shutdown.c148_answered_partial",
    "Swoll.Props.Shutdown.c148_prompt",
    "Swoll.Props.Shutdown.c148_no_more",
    "Swoll.Props.Shutdown.c148_goes_on",
    "Swoll.Props.Shutdown.c148_serves",
    "Swoll.Props.Shutdown.c148_terminated_violated",
    "Swoll.Props.Shutdown.c148_deaf_violated",
    "Swoll.Props.Shutdown.c148_watchers_violated"
   ],
   "note": "For the interrupt the whole claim is proved. It fails for SIGTERM, which is what Kubernetes sends and which the server does not catch, and when the hub fails: requests at work are cut off (c148_terminated_violated). It fails when the address cannot be listened on: the error is dropped and the server goes on, answering nothing (c148_deaf_violated). Watchers are cut off without a close (c148_watchers_violated)."
  },
  {
   "property": "C149",
   "status": "partial",
   "theorems": [
    "Swoll.Props.Log.c149_lines",
    "Swoll.Props.Log.c149_entry_partial",
    "Swoll.Props.Log.c149_read_partial",
    "Swoll.Props.Log.c149_address_violated",
    "Swoll.Props.Log.c149_unix_violated",
    "Swoll.Props.Log.c149_path_violated",
    "Swoll.Props.Log.c149_flags_violated",
    "Swoll.Props.Log.c149_letter_violated",
    "Swoll.Props.Log.c149_empty_violated",
    "Swoll.Props.Log.c149_long_violated"
   ],
   "note": "Lines: for all events. What is read back: for events whose arguments are whole: numbers, well-formed text, buffers, flags with names, types of sockets, options with names, addresses of families other than IPv6, of Unix sockets if the path ends within 14 bytes. Any error is allowed: one that is not of Linux is told as unknown by both. Fails for flags without a name (O_PATH is logged as O_RDONLY), for IPv6 addresses, long paths of Unix sockets and ill-formed text, lines of one byte, messages without an event and lines of 64 KiB."
  },
  {
   "property": "C15",
   "status": "partial",
   "theorems": [
    "Swoll.Props.Hub.c15_crash_iff_partial",
    "Swoll.Props.Hub.c15_violated"
   ],
   "note": "Exact crash condition proved; equal sample rates divide by zero."
  },
  {
   "property": "C150",
   "status": "partial",
   "theorems": [
    "Swoll.Props.Admit.c150_stored",
    "Swoll.Props.Admit.c150_checked",
    "Swoll.Props.Admit.c150_told",
    "Swoll.Props.Admit.c150_chart_partial",
    "Swoll.Props.Admit.c150_chart_violated",
    "Swoll.Props.Admit.c150_misspelt_violated"
   ],
   "note": "Holds for the repository's manifests and fields of the API. Fails for the Helm chart, whose definition lacks the sample rate, and for misspelt fields, which are dropped."
  },
  {
   "property": "C151",
   "status": "partial",
   "theorems": [
    "Swoll.Props.Admit.c151_exact",
    "Swoll.Props.Admit.c151_each_partial",
    "Swoll.Props.Admit.c151_violated"
   ],
   "note": "The controller is told of the traces just if all of them can be decoded. Fails: a duration that Go cannot parse is accepted by the API server."
  },
  {
   "property": "C152",
   "status": "partial",
   "theorems": [
    "Swoll.Props.Names.c152_accepted",
    "Swoll.Props.Names.c152_created_partial",
    "Swoll.Props.Names.c152_stuck_violated",
    "Swoll.Props.Names.c152_names_violated"
   ],
   "note": "Exact condition on names proved; the property fails for names with dots or more than 60 characters."
  },
  {
   "property": "C153",
   "status": "partial",
   "theorems": [
    "Swoll.Props.Chart.c153_names_partial",
    "Swoll.Props.Chart.c153_names_violated",
    "Swoll.Props.Chart.c153_beside_partial",
    "Swoll.Props.Chart.c153_same_namespace_violated"
   ],
   "note": "Exact conditions proved for the names (with the chart's own values but for ports) and for two installations; the property fails outside of them."
  },
  {
   "property": "C154",
   "status": "partial",
   "theorems": [
    "Swoll.Props.Chart.c154_own",
    "Swoll.Props.Chart.c154_others",
    "Swoll.Props.Chart.c154_upgrade_partial",
    "Swoll.Props.Chart.c154_upgrade_violated",
    "Swoll.Props.Chart.c154_ports_partial"
   ],
   "note": "Selection proved; upgrades and other ports fail, with the exact conditions."
  },
  {
   "property": "C155",
   "status": "partial",
   "theorems": [
    "Swoll.Props.Chart.c155_may_partial",
    "Swoll.Props.Chart.c155_no_more",
    "Swoll.Props.Chart.c155_apart",
    "Swoll.Props.Chart.c155_events_violated",
    "Swoll.Props.Chart.c155_proxy_violated",
    "Swoll.Props.Chart.c155_shared_violated"
   ],
   "note": "Rights proved in both directions; events outside the namespace of the release, the metrics proxy and shared accounts fail."
  },
  {
   "property": "C156",
   "status": "partial",
   "theorems": [
    "Swoll.Props.Argv.c156_ready",
    "Swoll.Props.Argv.c156_command",
    "Swoll.Props.Argv.c156_line",
    "Swoll.Props.Argv.c156_refused",
    "Swoll.Props.Argv.c156_last",
    "Swoll.Props.Argv.c156_default",
    "Swoll.Props.Argv.c156_job",
    "Swoll.Props.Argv.c156_server",
    "Swoll.Props.Argv.c156_controller",
    "Swoll.Props.Argv.c156_before_partial",
    "Swoll.Props.Argv.c156_own_before_violated",
    "Swoll.Props.Argv.c156_stolen_violated"
   ],
   "note": "Flags after the command: proved in full. Flags before it: proved for the flags of the root when none of the words is a word of the command's name; the negations show what goes wrong otherwise. cobra and pflag are contracts."
  },
  {
   "property": "C157",
   "status": "partial",
   "theorems": [
    "Swoll.Props.Examples.c157_shown_partial",
    "Swoll.Props.Examples.c157_goes_on_partial",
    "Swoll.Props.Examples.c157_rules_partial",
    "Swoll.Props.Examples.c157_but_for_the_switch",
    "Swoll.Props.Examples.c157_dark_violated",
    "Swoll.Props.Examples.c157_basic_trace_violated",
    "Swoll.Props.Examples.c157_kubernetes_basic_violated",
    "Swoll.Props.Examples.c157_default_filter_violated"
   ],
   "note": "Proved for programs that switch the filter on. The two examples never do, so they show nothing (the _violated theorems); their default filter asks for nothing either."
  },
  {
   "property": "C158",
   "status": "partial",
   "theorems": [
    "Swoll.Props.FlagUse.c158_found",
    "Swoll.Props.FlagUse.c158_heeded_partial",
    "Swoll.Props.FlagUse.c158_unset_partial",
    "Swoll.Props.FlagUse.c158_words_partial",
    "Swoll.Props.FlagUse.c158_ignored_violated",
    "Swoll.Props.FlagUse.c158_words_violated"
   ],
   "note": "Every flag that is asked for exists with its type, for all lines; outside of a small list what is learned is what was written; for the flags and commands in the list, and for words, the line with and the line without are the same to the command."
  },
  {
   "property": "C159",
   "status": "partial",
   "theorems": [
    "Swoll.Props.Dashboard.c159_panels",
    "Swoll.Props.Dashboard.c159_panel_partial",
    "Swoll.Props.Dashboard.c159_top_partial",
    "Swoll.Props.Dashboard.c159_outcome",
    "Swoll.Props.Dashboard.c159_exported",
    "Swoll.Props.Dashboard.c159_class_violated",
    "Swoll.Props.Dashboard.c159_group_violated",
    "Swoll.Props.Dashboard.c159_average_violated",
    "Swoll.Props.Dashboard.c159_title_violated"
   ],
   "note": "Every panel but 29 is right for all series and choices; those for one class or group if one is chosen. They are empty if there is more than one, as with the preset; panel 29 shows an average; 51 and 29 take no notice of the class and the group in their titles."
  },
  {
   "property": "C16",
   "status": "partial",
   "theorems": [
    "Swoll.Props.Hub.c16_coverage_partial",
    "Swoll.Props.Hub.c16_violated",
    "Swoll.Props.Hub.c16_stop_actual"
   ],
   "note": "Coverage for every interleaving without stop notifications in the same pid namespace; with them it is false (proved witness)."
  },
  {
   "property": "C160",
   "status": "partial",
   "theorems": [
    "Swoll.Props.Runtime.c160_process",
    "Swoll.Props.Runtime.c160_file",
    "Swoll.Props.Runtime.c160_listing",
    "Swoll.Props.Runtime.c160_known",
    "Swoll.Props.Runtime.c160_known_partial",
    "Swoll.Props.Runtime.c160_crash_violated",
    "Swoll.Props.Runtime.c160_moved_violated",
    "Swoll.Props.Runtime.c160_unborn_violated"
   ],
   "note": "Proved: the process is the one that the JSON of the status names, the file is the one of that process below the directory, a listing that comes back is the one of the earlier model, and the calls reported under the number of a container are those of the threads that will have their children where its main process will; so for processes that never called unshare or setns, just those that live in the namespace. Violated: a process that is not given as a number ends the program; the main process may have called unshare, and then the container is not found, or is known by another number than its calls."
  },
  {
   "property": "C161",
   "status": "partial",
   "theorems": [
    "Swoll.Props.Whole.c161_shown_partial",
    "Swoll.Props.Whole.c161_only_partial"
   ],
   "note": "Composition of C126, C124, C160 and C142: from processes that fork, unshare and join pid namespaces to the clients of a job. Missing is what is missing there: main processes or callers that called unshare or setns for pid namespaces (c160_moved_violated, c143_unshare_violated), pods that change (c126_neighbour_violated, c124_relabelled_violated), sampled jobs (C119), execve (c77_execve_partial), match expressions (C120)."
  },
  {
   "property": "C17",
   "status": "partial",
   "theorems": [
    "Swoll.Props.Hub.c17_violated",
    "Swoll.Props.Hub.c17_violated_example"
   ],
   "note": "The claim is false in every state: the last kernel update of a start always stores rate 0."
  },
  {
   "property": "C18",
   "status": "proved",
   "theorems": [
    "Swoll.Props.Hub.c18_not_selected",
    "Swoll.Props.Hub.c18_selected",
    "Swoll.Props.Hub.table_ok"
   ],
   "note": ""
  },
  {
   "property": "C19",
   "status": "partial",
   "theorems": [
    "Swoll.Props.Hub.c19_actual",
    "Swoll.Props.Hub.c19_partial",
    "Swoll.Props.Hub.c19_violated",
    "Swoll.Props.Hub.c19_host_injective"
   ],
   "note": "Exact behaviour proved; restarted hosts are lost and stopped-only hosts are listed."
  },
  {
   "property": "C20",
   "status": "proved",
   "theorems": [
    "Swoll.Props.Topology.c20_lookup",
    "Swoll.Props.Topology.c20_copy",
    "Swoll.Props.Topology.c20_errors",
    "Swoll.Props.Topology.c20_error_log"
   ],
   "note": "The cache is keyed by pid namespace only, so containers sharing one overwrite each other; the property speaks of the last event for the namespace."
  },
  {
   "property": "C21",
   "status": "proved",
   "theorems": [
    "Swoll.Props.Topology.c21_calls",
    "Swoll.Props.Topology.c21_after_update"
   ],
   "note": ""
  },
  {
   "property": "C22",
   "status": "partial",
   "theorems": [
    "Swoll.Props.Topology.c22_listing",
    "Swoll.Props.Topology.c22_all",
    "Swoll.Props.Topology.c22_starts",
    "Swoll.Props.Topology.c22_stops_actual",
    "Swoll.Props.Topology.c22_stops_partial",
    "Swoll.Props.Topology.c22_violated"
   ],
   "note": "Starts, listings and exact stop behaviour proved; stops are wrong for restarted, terminated or never-steady pods, and starts can be doubled (proved witness)."
  },
  {
   "property": "C23",
   "status": "proved",
   "theorems": [
    "Swoll.Props.Filter.c23_add_writes_one",
    "Swoll.Props.Filter.c23_add_remove",
    "Swoll.Props.Filter.c23_errors",
    "Swoll.Props.Filter.c23_pairs_distinct"
   ],
   "note": ""
  },
  {
   "property": "C24",
   "status": "proved",
   "theorems": [
    "Swoll.Props.Filter.c24_first_match",
    "Swoll.Props.Filter.c24_counts_only_decider",
    "Swoll.Props.Filter.c24_decider_unique",
    "Swoll.Props.Probe.c24_matched"
   ],
   "note": "Sequential evaluations; what the counters do on several CPUs is C114."
  },
  {
   "property": "C25",
   "status": "proved",
   "theorems": [
    "Swoll.Props.Filter.c25_sampling",
    "Swoll.Props.Filter.c25_wraparound"
   ],
   "note": "The claim counts from 1 below 2^32 matches; the wrap of the 32 bit counter is stated separately."
  },
  {
   "property": "C26",
   "status": "proved",
   "theorems": [
    "Swoll.Props.Filter.c26_refines",
    "Swoll.Props.Filter.c26_added_passes",
    "Swoll.Props.Filter.c26_added_everywhere_passes",
    "Swoll.Props.Filter.c26_remove_restores",
    "Swoll.Props.Filter.c26_isolated"
   ],
   "note": ""
  },
  {
   "property": "C27",
   "status": "partial",
   "theorems": [
    "Swoll.Props.Filter.c27_remove_metrics_violated",
    "Swoll.Props.Filter.c27_metrics_partial"
   ],
   "note": "The code violates the property for every namespace: AddRule rewrites the key, DelRule does not."
  },
  {
   "property": "C28",
   "status": "proved",
   "theorems": [
    "Swoll.Props.Filter.c28_get_running"
   ],
   "note": "Holds because no API call installs the all-zero key; LookupNextElement follows the kernel's get_next_key contract (trusted)."
  },
  {
   "property": "C29",
   "status": "proved",
   "theorems": [
    "Swoll.Props.Probe.c29_counts",
    "Swoll.Props.Probe.c29_buckets",
    "Swoll.Props.Probe.c29_seen_bracket"
   ],
   "note": "Counts are exact modulo 2^64; the bracket is stated for a clock that does not go back."
  },
  {
   "property": "C30",
   "status": "partial",
   "theorems": [
    "Swoll.Props.Probe.c30_time_partial",
    "Swoll.Props.Probe.c30_overlap_violated",
    "Swoll.Props.Probe.c30_restart_violated"
   ],
   "note": "The full statement is false of the code. Proved for non-overlapping calls of a pair without error numbers of 255 or more; both violations are proved."
  },
  {
   "property": "C31",
   "status": "partial",
   "theorems": [
    "Swoll.Props.Probe.c31_prune_partial",
    "Swoll.Props.Probe.c31_prune_violated"
   ],
   "note": "Proved for every map content and order as long as pid namespace 0 was never monitored; with the all-zero key present the statement is false (proved)."
  },
  {
   "property": "C32",
   "status": "partial",
   "theorems": [
    "Swoll.Props.Probe.c32_query_all_partial",
    "Swoll.Props.Probe.c32_query_all_general",
    "Swoll.Props.Probe.c32_query_all_violated"
   ],
   "note": "As C31; c32_query_all_general says what is returned otherwise."
  },
  {
   "property": "C33",
   "status": "partial",
   "theorems": [
    "Swoll.Props.Probe.c33_pairing",
    "Swoll.Props.Probe.c33_only_exits",
    "Swoll.Props.Probe.c33_enter_used_once",
    "Swoll.Props.Probe.c33_most_recent_partial",
    "Swoll.Props.Probe.c33_most_recent_violated"
   ],
   "note": "Pairing is characterised exactly for every interleaving; \"most recent enter\" needs per-thread alternation of enters and exits, and is false without it (proved)."
  },
  {
   "property": "C34",
   "status": "proved",
   "theorems": [
    "Swoll.Props.Event.c34_bytes_of_event_decode",
    "Swoll.Props.Event.c34_event_size",
    "Swoll.Props.Event.c34_rejects_short",
    "Swoll.Props.Event.c34_trailing_ignored",
    "Swoll.Props.Event.c34_decode_bytes_back"
   ],
   "note": "Little-endian, x86-64 layout of the C structure and of the Go structure both modelled."
  },
  {
   "property": "C35",
   "status": "proved",
   "theorems": [
    "Swoll.Props.Event.c35_cstring",
    "Swoll.Props.Event.c35_commstr",
    "Swoll.Props.Event.c35_int64",
    "Swoll.Props.Event.c35_int32",
    "Swoll.Props.Event.c35_low_half"
   ],
   "note": "All byte lists and all values."
  },
  {
   "property": "C36",
   "status": "partial",
   "theorems": [
    "Swoll.Props.Event.c36_decoded_arguments_partial",
    "Swoll.Props.Event.c36_meanings_cover",
    "Swoll.Props.Event.c36_mismatches_are_real",
    "Swoll.Props.Event.c36_page_end_violated",
    "Swoll.Props.Event.c36_execve_partial",
    "Swoll.Props.Event.c36_execve_violated"
   ],
   "note": "Proved for every field of every decodable call except 21 fields, each proved wrong; strings whose 128 bytes are not all readable are lost; execve argv is shifted by one."
  },
  {
   "property": "C37",
   "status": "partial",
   "theorems": [
    "Swoll.Props.Event.c37_outside_iff",
    "Swoll.Props.Event.c37_inside_partial",
    "Swoll.Props.Event.c37_violated"
   ],
   "note": "Exact characterisation; the claim is false for mprotect, nanosleep and negative sizes."
  },
  {
   "property": "C38",
   "status": "partial",
   "theorems": [
    "Swoll.Props.Event.c38_panics_iff",
    "Swoll.Props.Event.c38_no_panic_partial",
    "Swoll.Props.Event.c38_decodable_ok",
    "Swoll.Props.Event.c38_violated"
   ],
   "note": "Exact characterisation; the claim is false for every system call without a decoder."
  },
  {
   "property": "C39",
   "status": "partial",
   "theorems": [
    "Swoll.Props.Event.c39_header_partial",
    "Swoll.Props.Event.c39_pid_violated"
   ],
   "note": "pid and tid are swapped; timestamps exact below 2^63; return value and error in C68."
  },
  {
   "property": "C40",
   "status": "partial",
   "theorems": [
    "Swoll.Props.Flags.c40_json_roundtrip_partial",
    "Swoll.Props.Flags.c40_file_roundtrip_iff",
    "Swoll.Props.Flags.c40_file_violated",
    "Swoll.Props.Flags.c40_mount_roundtrip_iff",
    "Swoll.Props.Flags.c40_mount_violated",
    "Swoll.Props.Flags.c40_into_used_variable_violated"
   ],
   "note": "Proved for message, timer, umount, accept and inotify flags over all 64-bit values and iteration orders. File and mount flags have exact conditions and counterexamples: O_DSYNC alone comes back as O_SYNC, MS_NOUSER is a sign-extended mask."
  },
  {
   "property": "C41",
   "status": "partial",
   "theorems": [
    "Swoll.Props.Flags.c41_names_are_set_flags_partial",
    "Swoll.Props.Flags.c41_each_name_once",
    "Swoll.Props.Flags.c41_order_irrelevant",
    "Swoll.Props.Flags.c41_file_names_iff",
    "Swoll.Props.Flags.c41_file_violated",
    "Swoll.Props.Flags.c41_mount_names_iff"
   ],
   "note": "Proved for nine flag types; file flags print O_SYNC when only O_DSYNC is set and mount flags have a wide MS_NOUSER mask (exact conditions proved)."
  },
  {
   "property": "C42",
   "status": "proved",
   "theorems": [
    "Swoll.Props.Flags.c42_linux_errors",
    "Swoll.Props.Flags.c42_names_distinct",
    "Swoll.Props.Flags.c42_unknown",
    "Swoll.Props.Flags.c42_roundtrip_iff"
   ],
   "note": "The Linux error table of the specification was taken from the C headers."
  },
  {
   "property": "C43",
   "status": "partial",
   "theorems": [
    "Swoll.Props.Syscalls.c43_init_succeeds",
    "Swoll.Props.Syscalls.c43_lookup_complete",
    "Swoll.Props.Syscalls.c43_prefix_optional",
    "Swoll.Props.Syscalls.c43_lookup_sound",
    "Swoll.Props.Syscalls.c43_order_independent",
    "Swoll.Props.Syscalls.c43_every_number_reachable_violated"
   ],
   "note": "holds for the 305 classified syscalls; 28 numbered but unclassified syscalls are unreachable (violation proved)"
  },
  {
   "property": "C44",
   "status": "partial",
   "theorems": [
    "Swoll.Props.Flags.c44_ipv4_partial",
    "Swoll.Props.Flags.c44_ipv4_faithful",
    "Swoll.Props.Flags.c44_ipv6_port_iff",
    "Swoll.Props.Flags.c44_ipv6_violated",
    "Swoll.Props.Flags.c44_ipv6_text"
   ],
   "note": "True of IPv4. For IPv6 the port is not converted: it is right iff its two bytes are equal."
  },
  {
   "property": "C45",
   "status": "proved",
   "theorems": [
    "Swoll.Props.Alert.c45_queue"
   ],
   "note": "Under the contract that a pushed alert is not modified by its owner."
  },
  {
   "property": "C46",
   "status": "proved",
   "theorems": [
    "Swoll.Props.Alert.c46_transitions",
    "Swoll.Props.Alert.c46_active_iff",
    "Swoll.Props.Alert.c46_mirror",
    "Swoll.Props.Alert.c46_reused_alert_violated"
   ],
   "note": "Under the same contract; without it the delete callback can be lost (proved witness)."
  },
  {
   "property": "C47",
   "status": "partial",
   "theorems": [
    "Swoll.Props.Controller.c47_forward",
    "Swoll.Props.Controller.c47_complete_stays",
    "Swoll.Props.Controller.c47_no_crash",
    "Swoll.Props.Controller.c47_complete_untouched",
    "Swoll.Props.Controller.c47_restart_violated"
   ],
   "note": "States move forward only in every history, complete traces stay complete and no reconcile crashes; but a stale read of a complete trace can create another job (counterexample proved)."
  },
  {
   "property": "C48",
   "status": "partial",
   "theorems": [
    "Swoll.Props.Controller.c48_one_good_create_partial",
    "Swoll.Props.Controller.c48_created_partial",
    "Swoll.Props.Controller.c48_quiet_partial",
    "Swoll.Props.Controller.c48_conflict_violated",
    "Swoll.Props.Controller.c48_fault_violated",
    "Swoll.Props.Controller.c48_stale_violated",
    "Swoll.Props.Controller.c48_unbounded_violated"
   ],
   "note": "At most one reconcile creates a job without reporting an error, and at most one job exists if nothing goes wrong; the full claim is false (conflicting edit, fault, stale read, foreign finalizer), with counterexamples."
  },
  {
   "property": "C49",
   "status": "partial",
   "theorems": [
    "Swoll.Props.Controller.c49_release_partial",
    "Swoll.Props.Controller.c49_no_new_job_partial",
    "Swoll.Props.Controller.c49_deletes",
    "Swoll.Props.Controller.c49_jobless_gone",
    "Swoll.Props.Controller.c49_pending_violated",
    "Swoll.Props.Controller.c49_stuck_violated",
    "Swoll.Props.Controller.c49_stuck_reachable"
   ],
   "note": "The finalizer is never released while the job in the status exists; but deleting a pending trace creates a job, and a trace whose job is gone is never released (proved for all continuations)."
  },
  {
   "property": "C50",
   "status": "partial",
   "theorems": [
    "Swoll.Props.Controller.c50_waits",
    "Swoll.Props.Controller.c50_unlimited",
    "Swoll.Props.Controller.c50_completes",
    "Swoll.Props.Controller.c50_looked_at_again",
    "Swoll.Props.Controller.c50_next_look",
    "Swoll.Props.Controller.c50_on_time",
    "Swoll.Props.Controller.c50_never_early",
    "Swoll.Props.Controller.c50_start_time",
    "Swoll.Props.Controller.c50_rounding",
    "Swoll.Props.Controller.c50_early_violated",
    "Swoll.Props.Controller.c50_job_goes_on"
   ],
   "note": "Holds relative to the stored start time, which is rounded down to a second, so a trace may complete almost a second early (counterexample). If nothing goes wrong it is complete by the second look after the start."
  },
  {
   "property": "C51",
   "status": "proved",
   "theorems": [
    "Swoll.Props.Offsets.c51_stored",
    "Swoll.Props.Offsets.c51_unknown",
    "Swoll.Props.Offsets.c51_error",
    "Swoll.Props.Offsets.c51_flags",
    "Swoll.Props.Offsets.c51_flags_absent",
    "Swoll.Props.Offsets.c51_flags_refused",
    "Swoll.Props.Offsets.c51_flag_truncated_violated",
    "Swoll.Props.Offsets.c51_int_violated"
   ],
   "note": "Proved for Set by name and for the command line flags up to 32 bits, digits in either case; what is no hexadecimal number is refused. Beside the claim: larger flag values and int types are silently cut."
  },
  {
   "property": "C52",
   "status": "partial",
   "theorems": [
    "Swoll.Props.Offsets.c52_success_partial",
    "Swoll.Props.Offsets.c52_detects",
    "Swoll.Props.Offsets.c52_nsproxy_search",
    "Swoll.Props.Offsets.c52_pidns_search",
    "Swoll.Props.Offsets.c52_violated",
    "Swoll.Props.Offsets.c52_pidns_violated",
    "Swoll.Props.Offsets.c52_sign_violated",
    "Swoll.Props.Offsets.c52_no_lock_violated"
   ],
   "note": "Success with something found in both searches means both offsets were set to most frequent candidates; the full claim is false of the code: when a search finds nothing, success is reported and nothing is set (proved for every such kernel)."
  },
  {
   "property": "C53",
   "status": "partial",
   "theorems": [
    "Swoll.Props.Offsets.c53_lookup_partial",
    "Swoll.Props.Offsets.c53_malformed_violated"
   ],
   "note": "For every file of well formed lines the lookup gives the last matching line. The full claim is false of the code: it crashes on a malformed line, and exactly then."
  },
  {
   "property": "C54",
   "status": "partial",
   "theorems": [
    "Swoll.Props.Server.c54_unique_partial",
    "Swoll.Props.Server.c54_refused_partial",
    "Swoll.Props.Server.c54_race_violated"
   ],
   "note": "Proved for every history in which requests about the same id do not overlap (requests about different ids may). The full claim is false of the code: two overlapping create requests for one id both succeed, from any state."
  },
  {
   "property": "C55",
   "status": "partial",
   "theorems": [
    "Swoll.Props.Server.c55_once_partial",
    "Swoll.Props.Server.c55_listed_partial",
    "Swoll.Props.Server.c55_reuse_violated",
    "Swoll.Props.Server.c55_race_violated"
   ],
   "note": "Proved for histories in which requests about the same id do not overlap and ids are used once. False beyond that: a reused id leaves the running list with an error, and overlapping deletions lose a job created between them."
  },
  {
   "property": "C56",
   "status": "partial",
   "theorems": [
    "Swoll.Props.Client.c56_url",
    "Swoll.Props.Client.c56_wellformed",
    "Swoll.Props.Client.c56_parse",
    "Swoll.Props.Client.c56_calls_partial",
    "Swoll.Props.Client.c56_readtrace_violated",
    "Swoll.Props.Client.c56_ipv6_violated"
   ],
   "note": "Proved for every host name, port and path, and for all calls but ReadTrace. Violated: ReadTrace dials the path alone and never connects, for any argument; IPv6 hosts are not bracketed."
  },
  {
   "property": "C57",
   "status": "proved",
   "theorems": [
    "Swoll.Props.Views.c57_window",
    "Swoll.Props.Views.c57_recent"
   ],
   "note": "For every capacity and every sequence of pushes."
  },
  {
   "property": "C58",
   "status": "proved",
   "theorems": [
    "Swoll.Props.Views.c58_rows",
    "Swoll.Props.Views.c58_values",
    "Swoll.Props.Views.c58_total"
   ],
   "note": "For every table in every iteration order, every selection of keys, with and without errors only; totals up to 2^53."
  },
  {
   "property": "C59",
   "status": "partial",
   "theorems": [
    "Swoll.Props.Views.c59_order",
    "Swoll.Props.Views.c59_links_partial",
    "Swoll.Props.Views.c59_weight_partial",
    "Swoll.Props.Views.c59_conserved_partial",
    "Swoll.Props.Views.c59_level_partial",
    "Swoll.Props.Views.c59_crash_violated",
    "Swoll.Props.Views.c59_float_violated"
   ],
   "note": "Proved when all syscalls are in the tables and no link carries more than 2^24. False of the code otherwise: an unlisted syscall makes the request panic, and a float32 weight of 2^24 no longer grows."
  },
  {
   "property": "C60",
   "status": "partial",
   "theorems": [
    "Swoll.Props.Views.c60_accumulates",
    "Swoll.Props.Views.c60_first_partial",
    "Swoll.Props.Views.c60_reload_violated",
    "Swoll.Props.Views.c60_stale_violated"
   ],
   "note": "c60_accumulates says for every sequence of page loads exactly what is shown: the sum over all loads of the index page. The claimed equality holds only for the first load."
  },
  {
   "property": "C61",
   "status": "partial",
   "theorems": [
    "Swoll.Props.Views.c61_samples_partial",
    "Swoll.Props.Views.c61_distinct_partial",
    "Swoll.Props.Views.c61_stored_partial",
    "Swoll.Props.Views.c61_no_topology",
    "Swoll.Props.Views.c61_crash_violated",
    "Swoll.Props.Views.c61_clone3_violated",
    "Swoll.Props.Views.c61_duplicate_violated"
   ],
   "note": "Proved when all syscalls of resolvable metrics are in the tables, and distinctness for the error numbers of Linux. False otherwise: one metric of an unlisted syscall (any number from 333 on, e.g. clone3) panics, and unnamed error numbers make duplicate series."
  },
  {
   "property": "C62",
   "status": "partial",
   "theorems": [
    "Swoll.Props.Lifecycle.c62_safe",
    "Swoll.Props.Lifecycle.c62_run_not_ready",
    "Swoll.Props.Lifecycle.c62_run_ready",
    "Swoll.Props.Lifecycle.c62_run_waits",
    "Swoll.Props.Lifecycle.c62_default_tracepoints",
    "Swoll.Props.Lifecycle.c62_init",
    "Swoll.Props.Lifecycle.c62_close",
    "Swoll.Props.Lifecycle.c62_close_nil",
    "Swoll.Props.Lifecycle.c62_cancel",
    "Swoll.Props.Lifecycle.c62_held_partial",
    "Swoll.Props.Lifecycle.c62_released_partial",
    "Swoll.Props.Lifecycle.c62_messages",
    "Swoll.Props.Lifecycle.c62_reader",
    "Swoll.Props.Lifecycle.c62_option_violated",
    "Swoll.Props.Lifecycle.c62_tracepoint_violated",
    "Swoll.Props.Lifecycle.c62_poller_violated",
    "Swoll.Props.Lifecycle.c62_close_running_violated",
    "Swoll.Props.Lifecycle.c62_zero_violated"
   ],
   "note": "For every history of calls, faults and interleaved Run loops. That all is released is proved when no option, tracepoint or callback fails; it is false otherwise: a failed option leads to a second load, a failed tracepoint to a second attachment, a failed callback leaves the poller."
  },
  {
   "property": "C63",
   "status": "partial",
   "theorems": [
    "Swoll.Props.Hash.c63_trace_path",
    "Swoll.Props.Hash.c63_streams_disjoint",
    "Swoll.Props.Hash.c63_empty_id_violated"
   ],
   "note": "Holds for non-empty ids the checksum keeps apart; a trace with an empty id receives every job's events."
  },
  {
   "property": "C64",
   "status": "partial",
   "theorems": [
    "Swoll.Props.Hub.c64_known_partial",
    "Swoll.Props.Hub.c64_violated"
   ],
   "note": "False for unknown names (nil dereference); proved for known names under any kernel refusal."
  },
  {
   "property": "C65",
   "status": "proved",
   "theorems": [
    "Swoll.Props.Topology.c65_job_observer",
    "Swoll.Props.Topology.c65_last_option_wins"
   ],
   "note": ""
  },
  {
   "property": "C66",
   "status": "proved",
   "theorems": [
    "Swoll.Props.Alert.c66_parse"
   ],
   "note": "JSON decoding itself is not modelled."
  },
  {
   "property": "C67",
   "status": "partial",
   "theorems": [
    "Swoll.Props.Event.c67_no_stale_data_partial",
    "Swoll.Props.Event.c67_stale_fields_are_real"
   ],
   "note": "Nine fields, each proved to leak, are excepted."
  },
  {
   "property": "C68",
   "status": "partial",
   "theorems": [
    "Swoll.Props.Event.c68_result_partial",
    "Swoll.Props.Event.c68_negative_violated",
    "Swoll.Props.Event.c68_getcwd_violated",
    "Swoll.Props.Event.c68_large_violated"
   ],
   "note": "Exact for results from -4095 to 2^31-1 except negative return values, and except getcwd."
  },
  {
   "property": "C69",
   "status": "partial",
   "theorems": [
    "Swoll.Props.Flags.c69_constants_roundtrip",
    "Swoll.Props.Flags.c69_rlimit_roundtrip",
    "Swoll.Props.Flags.c69_socktype_iff",
    "Swoll.Props.Flags.c69_socktype_flags",
    "Swoll.Props.Flags.c69_socktype_violated",
    "Swoll.Props.Flags.c69_sockopt_iff",
    "Swoll.Props.Flags.c69_sockopt_ipv6_violated"
   ],
   "note": "Families, protocols, levels and resource limits survive. Socket types other than those of socket(2) become 0; option names of other levels lose their level and named IPv6 options cannot be read back."
  },
  {
   "property": "C70",
   "status": "partial",
   "theorems": [
    "Swoll.Props.EventJSON.c70_same_types",
    "Swoll.Props.EventJSON.c70_readable_partial",
    "Swoll.Props.EventJSON.c70_header_partial",
    "Swoll.Props.EventJSON.c70_arguments_partial",
    "Swoll.Props.EventJSON.c70_option_iff",
    "Swoll.Props.EventJSON.c70_intact_arguments",
    "Swoll.Props.EventJSON.c70_whole_event",
    "Swoll.Props.EventJSON.c70_plain_event",
    "Swoll.Props.EventJSON.c70_ipv6_option_violated",
    "Swoll.Props.EventJSON.c70_path_violated"
   ],
   "note": "Exactly which events are read back, and what of each field; c70_whole_event: events of which all but the end of an address is read back. Not true of the code for named IPv6 options (the reader fails), text that is not UTF-8, unknown errors, long socket addresses and unnamed flag bits; events with buffers outside the event (C37) are left out. C134 proves the same of the text of the messages."
  },
  {
   "property": "C71",
   "status": "partial",
   "theorems": [
    "Swoll.Props.Flags.c71_sockaddr_json_partial",
    "Swoll.Props.Flags.c71_reads_enough",
    "Swoll.Props.Flags.c71_reads_needed",
    "Swoll.Props.Flags.c71_ipv4_survives",
    "Swoll.Props.Flags.c71_sockaddr_json_violated"
   ],
   "note": "JSON carries 16 bytes. IPv4, unspecified and short Unix addresses survive; IPv6 and long Unix addresses are printed from memory past the object. c71_reads_enough and c71_reads_needed say exactly how many bytes the printed text depends on."
  },
  {
   "property": "C72",
   "status": "partial",
   "theorems": [
    "Swoll.Props.JobArgs.c72_as_written_partial",
    "Swoll.Props.JobArgs.c72_flag_values",
    "Swoll.Props.JobArgs.c72_labels",
    "Swoll.Props.JobArgs.c72_hosts_violated",
    "Swoll.Props.JobArgs.c72_endpoints_violated",
    "Swoll.Props.JobArgs.c72_rate_violated",
    "Swoll.Props.JobArgs.c72_no_port_violated"
   ],
   "note": "With one endpoint and at most one host the request is as the resource says, but for duration and sample rate. The full claim is false of the code: several hosts arrive as one name, several endpoints make the client exit, and duration and sample rate are never passed; each is proved for all resources of that shape."
  },
  {
   "property": "C73",
   "status": "partial",
   "theorems": [
    "Swoll.Props.Views.c73_current_partial",
    "Swoll.Props.Views.c73_change_partial",
    "Swoll.Props.Views.c73_shared_violated"
   ],
   "note": "Proved when no two metrics belong to one row. False otherwise: unlisted syscalls of a container share a row that shows only the last of them."
  },
  {
   "property": "C74",
   "status": "partial",
   "theorems": [
    "Swoll.Props.Client.c74_create",
    "Swoll.Props.Client.c74_create_ok",
    "Swoll.Props.Client.c74_delete_partial",
    "Swoll.Props.Client.c74_delete_only",
    "Swoll.Props.Client.c74_delete_violated",
    "Swoll.Props.Client.c74_read",
    "Swoll.Props.Client.c74_list",
    "Swoll.Props.Client.c74_watch_partial",
    "Swoll.Props.Client.c74_watch_violated"
   ],
   "note": "Creating, streaming and listing proved for every name; deleting reaches no other job for any id, and succeeds exactly with its handler for plain ids. Violated: deleting \".\" or \"a/\" is redirected and reported as success with nothing deleted; ReadTrace with a pod but no namespace asks for everything."
  },
  {
   "property": "C75",
   "status": "partial",
   "theorems": [
    "Swoll.Props.Daemon.c75_counted_partial",
    "Swoll.Props.Daemon.c75_only_announced",
    "Swoll.Props.Daemon.c75_pruned_partial",
    "Swoll.Props.Daemon.c75_stop_violated"
   ],
   "note": "Counting is exact from announcement to stop, for every interleaving; entries exist only for announced namespaces; after a stop with nothing running, no entry remains. Violated: RemoveMetrics removes nothing, so calls after the stop are still counted (c75_stop_violated)."
  },
  {
   "property": "C76",
   "status": "partial",
   "theorems": [
    "Swoll.Props.Daemon.c76_true_partial",
    "Swoll.Props.Daemon.c76_recipients",
    "Swoll.Props.Daemon.c76_tokens",
    "Swoll.Props.Daemon.c76_everyone"
   ],
   "note": "Truth, order and uniqueness hold for every history and any checksum; recipients and completeness among users assume the checksum keeps the names involved apart (see C07). Missing: the arguments that C36 shows wrong, results of getcwd and of 31 bits and more (C68)."
  },
  {
   "property": "C77",
   "status": "partial",
   "theorems": [
    "Swoll.Props.Daemon.c77_complete_partial",
    "Swoll.Props.Daemon.c77_execve_partial",
    "Swoll.Props.Daemon.c77_drains"
   ],
   "note": "Proved for decodable syscalls and unsampled rules in every history after which the queues are empty; missing: undecodable syscalls end the process (C38, C78), sampled jobs (C14), calls dropped for lack of room."
  },
  {
   "property": "C78",
   "status": "partial",
   "theorems": [
    "Swoll.Props.Daemon.c78_survives_partial",
    "Swoll.Props.Daemon.c78_violated"
   ],
   "note": "The daemon survives every history in which only decodable syscalls are requested, equal positive rates do not meet and nobody detaches twice; each exception ends the process (c78_violated, C15, C05)."
  },
  {
   "property": "C79",
   "status": "partial",
   "theorems": [
    "Swoll.Props.Sync.c79_no_race_partial",
    "Swoll.Props.Sync.c79_sampled_no_race_partial",
    "Swoll.Props.Sync.c79_alerts_no_race_partial",
    "Swoll.Props.Sync.c79_hosts_violated",
    "Swoll.Props.Sync.c79_status_violated",
    "Swoll.Props.Sync.c79_connection_violated",
    "Swoll.Props.Sync.c79_clouds_violated",
    "Swoll.Props.Sync.c79_sampled_violated"
   ],
   "note": "Proved for every family of server goroutines and every schedule, for all tables that have a lock. Violated for a job's hosts and status, websockets, word clouds, and the registered jobs once a job is sampled."
  },
  {
   "property": "C80",
   "status": "partial",
   "theorems": [
    "Swoll.Props.Sync.c80_no_deadlock_partial",
    "Swoll.Props.Sync.c80_no_misuse",
    "Swoll.Props.Sync.c80_all_finish",
    "Swoll.Props.Sync.c80_alerts_no_deadlock_partial",
    "Swoll.Props.Sync.c80_top_violated",
    "Swoll.Props.Sync.c80_unsubscribe_violated",
    "Swoll.Props.Sync.c80_alert_violated"
   ],
   "note": "Proved for the server (no deadlock, bounded schedules, all locks free at the end). Violated for swoll top (read lock taken twice), a subscriber that unsubscribes in its callback, and an alert callback that raises an alert."
  },
  {
   "property": "C81",
   "status": "partial",
   "theorems": [
    "Swoll.Props.Sync.c81_quiet_partial",
    "Swoll.Props.Sync.c81_quiet_finish_partial",
    "Swoll.Props.Sync.c81_slow_client_violated",
    "Swoll.Props.Sync.c81_slow_list_violated"
   ],
   "note": "Requests that have nothing to do with events get done whatever stalled watchers do. Violated for deleting, watching and jobs while an event is being sent, and for creating and deleting while a list is being sent."
  },
  {
   "property": "C82",
   "status": "partial",
   "theorems": [
    "Swoll.Props.Service.c82_stays_deleted_partial",
    "Swoll.Props.Service.c82_violated",
    "Swoll.Props.Service.c82_violated_story"
   ],
   "note": "Proved for every history in which no goroutine of the job is mid-callback at the DELETE and none hears of a started container afterwards. The code does not cancel the goroutine, so a later container start registers the job again: c82_violated proves it for every such state, and that DELETE then answers 404."
  },
  {
   "property": "C83",
   "status": "partial",
   "theorems": [
    "Swoll.Props.Service.c83_deleted_partial",
    "Swoll.Props.Service.c83_unknown",
    "Swoll.Props.Service.c83_violated"
   ],
   "note": "Proved for every listed job that is registered for something, and that unknown ids answer 404 and change nothing. A listed job that has not heard of a container cannot be deleted (500, stays listed): c83_violated."
  },
  {
   "property": "C84",
   "status": "partial",
   "theorems": [
    "Swoll.Props.Service.c84_subscriptions",
    "Swoll.Props.Service.c84_stays",
    "Swoll.Props.Service.c84_watch",
    "Swoll.Props.Service.c84_closed_partial",
    "Swoll.Props.Service.c84_violated"
   ],
   "note": "The subscriptions are characterised exactly in every reachable state. Proved for websockets that watch a job. Websockets that watch a path are never unsubscribed: c84_violated proves it for every continuation."
  },
  {
   "property": "C85",
   "status": "partial",
   "theorems": [
    "Swoll.Props.Service.c85_wanted_partial",
    "Swoll.Props.Service.c85_violated"
   ],
   "note": "Proved for every history in which no job leaves the hub while a goroutine of it is mid-callback. With such a deletion a rule stays behind for ever: c85_violated."
  },
  {
   "property": "C86",
   "status": "partial",
   "theorems": [
    "Swoll.Props.Serving.c86_survives_partial",
    "Swoll.Props.Serving.c86_violated"
   ],
   "note": "Proved for all histories in which every syscall a request names exists and can be decoded and no two requests for the same syscall have the same positive rate. c86_violated: a request with an unknown syscall is accepted and the next container it selects ends the server; the other two exceptions are C78 and C15."
  },
  {
   "property": "C87",
   "status": "partial",
   "theorems": [
    "Swoll.Props.Serving.c87_accepted",
    "Swoll.Props.Serving.c87_placed",
    "Swoll.Props.Serving.c87_covered_partial",
    "Swoll.Props.Serving.c87_served_partial",
    "Swoll.Props.Serving.c87_violated"
   ],
   "note": "The goroutine of an accepted request works with exactly the body of the request. Coverage and delivery proved for requests, sampled or not, whose callback was not refused by the kernel and whose rules nobody disturbs once they are in place; sampled delivery is C119."
  },
  {
   "property": "C88",
   "status": "partial",
   "theorems": [
    "Swoll.Props.Serving.c88_until_deleted_partial",
    "Swoll.Props.Serving.c88_violated",
    "Swoll.Props.Serving.c88_violated_events"
   ],
   "note": "Jobs stay until deleted, proved for all continuations. Durations are ignored by the server: c88_violated proves that leaving them out changes nothing."
  },
  {
   "property": "C89",
   "status": "partial",
   "theorems": [
    "Swoll.Props.Print.c89_every_decoded_call_prints",
    "Swoll.Props.Print.c89_call_name_partial",
    "Swoll.Props.Print.c89_call_name_violated",
    "Swoll.Props.Print.c89_arguments_partial",
    "Swoll.Props.Print.c89_argument_order",
    "Swoll.Props.Print.c89_all_arguments_partial",
    "Swoll.Props.Print.c89_all_arguments_violated",
    "Swoll.Props.Print.c89_misprinted_are_real",
    "Swoll.Props.Print.c89_protocol_violated",
    "Swoll.Props.Print.c89_execve_partial",
    "Swoll.Props.Print.c89_execve_violated",
    "Swoll.Props.Print.c89_types_partial",
    "Swoll.Props.Print.c89_types_violated"
   ],
   "note": "Proved for every decoded call outside exact lists: 20 printed arguments that misreport (each shown wrong by a call), 17 that are left out, and those whose C type is not the prototype's. umount2 is printed as umount, protocols of other families get internet names, execve's vector is shifted."
  },
  {
   "property": "C90",
   "status": "partial",
   "theorems": [
    "Swoll.Props.PrintFaithful.c90_arguments_partial",
    "Swoll.Props.PrintFaithful.c90_mode_violated",
    "Swoll.Props.PrintFaithful.c90_line_violated",
    "Swoll.Props.PrintFaithful.c90_words_violated"
   ],
   "note": "Per argument, outside the misprinted ones. Missing: mode bits above the permissions, and whole lines, because strings are not quoted."
  },
  {
   "property": "C91",
   "status": "partial",
   "theorems": [
    "Swoll.Props.PrintLine.c91_one_line_partial",
    "Swoll.Props.PrintLine.c91_one_line_violated"
   ],
   "note": "Proved for events without a line end in a string. Strings are printed as they are, so a file name can forge a second event."
  },
  {
   "property": "C92",
   "status": "partial",
   "theorems": [
    "Swoll.Props.PrintLine.c92_container_line_partial",
    "Swoll.Props.PrintLine.c92_host_line_partial",
    "Swoll.Props.PrintLine.c92_oneshot_line_partial",
    "Swoll.Props.PrintLine.c92_latency_violated",
    "Swoll.Props.PrintLine.c92_pid_violated"
   ],
   "note": "Latency is the nearest thousandth in the first 104 days of uptime, within a microsecond in the first 18 years. The number printed beside the command is that of the thread."
  },
  {
   "property": "C93",
   "status": "partial",
   "theorems": [
    "Swoll.Props.PrintLine.c93_names_are_linux",
    "Swoll.Props.PrintLine.c93_all_known_partial",
    "Swoll.Props.PrintLine.c93_unknown_calls_violated"
   ],
   "note": "Everything found is right; 68 of Linux's 373 calls are not found."
  },
  {
   "property": "C94",
   "status": "proved",
   "theorems": [
    "Swoll.Props.Host.c94_prints_the_named_calls",
    "Swoll.Props.Host.c94_starts",
    "Swoll.Props.Host.c94_all_or_nothing",
    "Swoll.Props.Host.c94_catches_up"
   ],
   "note": "For any interleaving of the calls of all threads with the reading of samples, the lines printed followed by the samples waiting correspond one to one and in order to the completed calls asked for whose samples the kernel did not lose; every line is that of an event that reports the call. What the line means is C89-C92, what the event says C36-C39."
  },
  {
   "property": "C95",
   "status": "partial",
   "theorems": [
    "Swoll.Props.Host.c95_goes_on_partial",
    "Swoll.Props.Host.c95_goes_on_violated",
    "Swoll.Props.Host.c95_most_names_violated"
   ],
   "note": "Proved if every call asked for has a decoder. False otherwise: a trace can be started for each of the 274 names without a decoder, and the first such call by anybody ends the program."
  },
  {
   "property": "C96",
   "status": "partial",
   "theorems": [
    "Swoll.Props.Host.c96_not_itself_partial",
    "Swoll.Props.Host.c96_filter_self_violated",
    "Swoll.Props.Host.c96_not_itself_violated",
    "Swoll.Props.Host.c96_never_quiet_violated"
   ],
   "note": "FilterSelf does nothing: the verdict of the filter never depends on the process. Proved: the tracer is not reported if it makes none of the calls asked for. Violated: a trace of write reports its own writing, a line for each line, without end."
  },
  {
   "property": "C97",
   "status": "partial",
   "theorems": [
    "Swoll.Props.Startup.c97_object_partial",
    "Swoll.Props.Startup.c97_missing_violated",
    "Swoll.Props.Startup.c97_empty_violated",
    "Swoll.Props.Startup.c97_top_violated"
   ],
   "note": "Proved for trace and server and files with content or a read error. Violated: a missing file ends the program though the code means to fall back, an empty file is silently replaced by the built-in object, and top ignores flag and variable."
  },
  {
   "property": "C98",
   "status": "partial",
   "theorems": [
    "Swoll.Props.Startup.c98_settings_partial",
    "Swoll.Props.Startup.c98_offsets_partial",
    "Swoll.Props.Startup.c98_top_violated",
    "Swoll.Props.Startup.c98_offsets_violated"
   ],
   "note": "Proved for trace and server. Violated for top, which takes no notice of the variables, and for offsets given without --no-detect-offsets, which are ignored."
  },
  {
   "property": "C99",
   "status": "partial",
   "theorems": [
    "Swoll.Props.Startup.c99_passes_partial",
    "Swoll.Props.Startup.c99_fit_passes_partial",
    "Swoll.Props.Startup.c99_unprivileged",
    "Swoll.Props.Startup.c99_leaves_alone",
    "Swoll.Props.Startup.c99_mount_violated",
    "Swoll.Props.Startup.c99_long_line_violated",
    "Swoll.Props.Startup.c99_bpf_syscall_violated"
   ],
   "note": "Proved in both directions for ordinary configuration files and directories that can be looked at. Violated: an error other than \"no such file\" passes, lines after one of 64K are not seen, CONFIG_BPF_SYSCALL is not looked for."
  }
 ]
}