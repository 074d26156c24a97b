import Verif.Lemmas.Client
/-
The client's URLs and requests, and the handlers of the server they reach (C56, C74).
-/
namespace Swoll.Props.Client
open Swoll.Client Swoll.Spec.Client Swoll.Lemmas.Client

/-- C56. The URL of an endpoint is scheme://host:port/path: the scheme is the one for TLS and streams,
the port is written in decimal digits, and the path is written in the characters of a URL. -/
theorem c56_url (ep : Endpoint) (path : Str) (wsock : Bool) (hh : HostName ep.host) (hp : 0 ≤ ep.port)
    (hs : path.head? = some 47) :
    ∃ port e, urlString (epURL ep path wsock) =
        schemeFor ep.tls wsock ++ ascii "://" ++ ep.host ++ [58] ++ port ++ e ∧
      Digits port ∧ (value port : Int) = ep.port ∧ e.head? = some 47 ∧ Writes e path := by
  cases path with
  | nil => cases hs
  | cons c r =>
    simp only [List.head?_cons, Option.some.injEq] at hs
    subst hs
    refine ⟨decimal ep.port.toNat, escape .path (47 :: r), urlString_eq ep r wsock hh hp,
      (decimal_spec _).1, ?_, by rw [escape_slash]; rfl, writes_escape _⟩
    rw [(decimal_spec _).2]
    omega

/-- C56. It is well formed. -/
theorem c56_wellformed (ep : Endpoint) (path : Str) (wsock : Bool) (hh : HostName ep.host)
    (hp : 0 ≤ ep.port) (hs : path.head? = some 47) :
    WellFormed (schemeFor ep.tls wsock) (urlString (epURL ep path wsock)) := by
  obtain ⟨port, e, h1, h2, -, h4, h5⟩ := c56_url ep path wsock hh hp hs
  exact ⟨ep.host, port, e, path, h1, Or.inl hh.2, h2.2, Or.inr h4, h5⟩

example : HostName (ascii "node-1.example.com") := by unfold HostName; decide +kernel
example : urlString (epURL ⟨ascii "node-1", 9095, true⟩ (ascii "/jobs/a b?c") false) =
    ascii "https://node-1:9095/jobs/a%20b%3Fc" := by decide +kernel
example : urlString (epURL ⟨ascii "10.0.0.7", 80, false⟩ (ascii "/jobs/x/ws") true) =
    ascii "ws://10.0.0.7:80/jobs/x/ws" := by decide +kernel

/-- C56. Reading the URL back gives the host, port and path again. -/
theorem c56_parse (ep : Endpoint) (path : Str) (wsock : Bool) (hh : HostName ep.host) (hp : 0 ≤ ep.port)
    (hs : path.head? = some 47) :
    parse (urlString (epURL ep path wsock)) = some (epURL ep path wsock) := by
  cases path with
  | nil => cases hs
  | cons c r =>
    simp only [List.head?_cons, Option.some.injEq] at hs
    subst hs
    exact parse_url ep r wsock hh hp

/-- C56. The calls that make, delete, list and stream jobs each send a request to the endpoint, over TLS
exactly if the endpoint says so, whatever the id and namespace. (ReadTrace is missing:
`c56_readtrace_violated`.) -/
theorem c56_calls_partial (ep : Endpoint) (hh : HostName ep.host) (hp : 0 ≤ ep.port) (id ns : Str) :
    ∀ r ∈ [createTrace ep id ns, deleteTraceJob ep id, getJobs ep, readTraceJob ep id],
      ∃ q, r = some q ∧ q.tls = ep.tls ∧
        ∃ port, q.host = ep.host ++ [58] ++ port ∧ Digits port ∧ (value port : Int) = ep.port := by
  have hport : ∀ path w, ∃ port, (epURL ep path w).host = ep.host ++ [58] ++ port ∧ Digits port ∧
      (value port : Int) = ep.port := by
    intro path w
    refine ⟨decimal ep.port.toNat, ?_, (decimal_spec _).1, ?_⟩
    · show ep.host ++ [58] ++ formatInt ep.port = _
      rw [formatInt_nonneg _ hp]
    · rw [(decimal_spec _).2]; omega
  have htls : ∀ path, ((epURL ep path false).scheme == ascii "https") = ep.tls := by
    intro path
    rw [scheme_epURL]
    cases ep.tls <;> decide +kernel
  intro r hr
  simp only [List.mem_cons, List.not_mem_nil, or_false] at hr
  rcases hr with rfl | rfl | rfl | rfl
  · exact ⟨_, createTrace_eq ep id ns hh hp, htls (ascii "/jobs/namespaces/" ++ ns),
      hport (ascii "/jobs/namespaces/" ++ ns) false⟩
  · exact ⟨_, deleteTraceJob_eq ep id hh hp, htls (ascii "/jobs/" ++ id), hport (ascii "/jobs/" ++ id) false⟩
  · exact ⟨_, getJobs_eq ep hh hp, htls (ascii "/jobs"), hport (ascii "/jobs") false⟩
  · exact ⟨_, readTraceJob_eq ep id hh hp, rfl, hport (ascii "/jobs/" ++ id ++ ascii "/ws") true⟩

/-- C56 is violated by ReadTrace: it dials the path alone, so there is no endpoint and no namespace for
which it sends a request. -/
theorem c56_readtrace_violated (ep : Endpoint) (ns pod container : Str) :
    readTrace ep ns pod container = none := readTrace_none ep ns pod container

/-- C56 is violated for IPv6 addresses: they are not put in brackets, and what comes out is not a URL. -/
theorem c56_ipv6_violated :
    ¬ WellFormed (ascii "http") (urlString (epURL ⟨ascii "::1", 80, false⟩ (ascii "/jobs") false)) := by
  have e : urlString (epURL ⟨ascii "::1", 80, false⟩ (ascii "/jobs") false) =
      [104, 116, 116, 112, 58, 47, 47] ++ (58 :: 58 :: [49, 58, 56, 48, 47, 106, 111, 98, 115]) := by decide +kernel
  rintro ⟨host, port, p, s, h1, h2, h3, h4, h5⟩
  have e2 : ascii "http" ++ ascii "://" = [104, 116, 116, 112, 58, 47, 47] := by decide +kernel
  have h1 := e.symm.trans h1
  rw [e2] at h1
  clear e e2
  simp only [List.append_assoc, List.append_cancel_left_eq] at h1
  cases host with
  | nil =>
    simp only [List.nil_append, List.cons_append, List.cons.injEq, true_and] at h1
    cases port with
    | nil =>
      rcases h4 with h4 | h4
      · subst h4; simp at h1
      · cases p with
        | nil => cases h4
        | cons c p =>
          simp only [List.nil_append, List.cons.injEq] at h1
          simp only [List.head?_cons, Option.some.injEq] at h4
          rw [← h1.1] at h4
          revert h4; decide +kernel
    | cons c port =>
      simp only [List.cons_append, List.cons.injEq] at h1
      have := h3 c (by simp)
      rw [← h1.1] at this
      revert this; decide +kernel
  | cons c host =>
    simp only [List.cons_append, List.cons.injEq] at h1
    rcases h2 with h2 | ⟨a, h2, -⟩
    · have := h2 c (by simp)
      rw [← h1.1] at this
      revert this; decide +kernel
    · simp only [List.cons.injEq] at h2
      rw [← h1.1] at h2
      exact absurd h2.1 (by decide +kernel)

/-! C74: the handlers reached. -/

/-- C74. CreateTrace reaches the handler that creates jobs, with the namespace and the id it was given,
whatever bytes they are made of. -/
theorem c74_create (ep : Endpoint) (hh : HostName ep.host) (hp : 0 ≤ ep.port) (id ns : Str)
    (hn : PlainName ns) :
    (createTrace ep id ns).bind serve =
      some (.handle (.createJob ns), if id = [] then none else some id) := by
  rw [createTrace_eq ep id ns hh hp, Option.bind_some, serve_of _ .post _ _ (target_create ep id ns) rfl,
    id_of_query, route_create ns hn]

example : PlainName (ascii "kube-system") := by unfold PlainName; decide +kernel
example : PlainName (ascii "a b&c=d;e%2F?#") := by unfold PlainName; decide +kernel

/-- C74. When CreateTrace succeeds, it is that handler which has answered: for no namespace is another
answer, or that of a redirect, taken for a created job. -/
theorem c74_create_ok (h : Handler → Nat) (hc : ∀ x, h x = 201 → ∃ n, x = .createJob n)
    (ep : Endpoint) (hh : HostName ep.host) (hp : 0 ≤ ep.port) (id ns : Str) :
    createTraceOK h ep id ns = true ↔ PlainName ns ∧ h (.createJob ns) = 201 := by
  unfold createTraceOK
  rw [createTrace_eq ep id ns hh hp]
  dsimp only
  rw [target_create]
  dsimp only
  constructor
  · intro hok
    cases hf : follow 10 (send .post { epURL ep (ascii "/jobs/namespaces/" ++ ns) false with
        query := idQuery id }).method (ascii "/jobs/namespaces/" ++ ns) with
    | none => rw [hf] at hok; cases hok
    | some a =>
      rw [hf] at hok
      cases a with
      | handle x =>
        simp only [status, beq_iff_eq] at hok
        obtain ⟨n, rfl⟩ := hc x hok
        obtain ⟨h1, h2⟩ := parts_create ns n (follow_first _ _ _ _ (Or.inl ⟨n, rfl⟩) hf)
        subst h2
        exact ⟨h1, hok⟩
      | moved p => revert hok; simp [status]
      | notFound => revert hok; simp [status]
      | methodNotAllowed => revert hok; simp [status]
  · rintro ⟨h1, h2⟩
    rw [show (send .post { epURL ep (ascii "/jobs/namespaces/" ++ ns) false with
      query := idQuery id }).method = .post from rfl, follow_handle 9 _ _ _ (route_create ns h1)]
    simpa [status] using h2

example : ∀ x, (fun x : Handler => match x with | .createJob _ => 201 | _ => 200) x = 201 →
    ∃ n, x = Handler.createJob n := by
  intro x; cases x <;> simp

/-- C74. DeleteTraceJob of a plain id succeeds exactly if the handler that deletes this job answers 200.
(For other ids: `c74_delete_violated`.) -/
theorem c74_delete_partial (h : Handler → Nat) (ep : Endpoint) (hh : HostName ep.host) (hp : 0 ≤ ep.port)
    (id : Str) (hn : PlainName id) :
    (deleteTraceJob ep id).bind serve = some (.handle (.deleteJob id), none) ∧
    (deleteTraceJobOK h ep id = true ↔ h (.deleteJob id) = 200) := by
  refine ⟨?_, ?_⟩
  · rw [deleteTraceJob_eq ep id hh hp, Option.bind_some, serve_of _ .delete _ _ (target_delete ep id) rfl,
      route_delete id hn]
    rfl
  · unfold deleteTraceJobOK
    rw [deleteTraceJob_eq ep id hh hp]
    dsimp only
    rw [target_delete]
    dsimp only
    rw [show (send .delete (epURL ep (ascii "/jobs/" ++ id) false)).method = .delete from rfl,
      follow_handle 9 _ _ _ (route_delete id hn)]
    simp [status]

/-- C74. Whatever the id, and whatever is redirected, no other job is deleted. -/
theorem c74_delete_only (ep : Endpoint) (hh : HostName ep.host) (hp : 0 ≤ ep.port) (id x : Str)
    (r : Request) (path q : Str) (hr : deleteTraceJob ep id = some r)
    (ht : parseTarget r.target = some (path, q)) (n : Nat)
    (hf : follow n r.method path = some (.handle (.deleteJob x))) : x = id := by
  rw [deleteTraceJob_eq ep id hh hp] at hr
  simp only [Option.some.injEq] at hr
  subst hr
  rw [target_delete] at ht
  simp only [Option.some.injEq, Prod.mk.injEq] at ht
  rw [← ht.1] at hf
  exact (parts_delete id x (follow_first _ _ _ _ (Or.inr ⟨x, rfl⟩) hf)).2

/-- C74 is violated by DeleteTraceJob: the ids "." and "a/" are redirected, the client follows with GET,
and takes the list of jobs, or a page, for a deleted job. Nothing has been deleted. -/
theorem c74_delete_violated (h : Handler → Nat) (h1 : h .list = 200) (h2 : h .page = 200)
    (ep : Endpoint) (hh : HostName ep.host) (hp : 0 ≤ ep.port) :
    deleteTraceJobOK h ep (ascii ".") = true ∧ deleteTraceJobOK h ep (ascii "a/") = true ∧
    (∀ id ∈ [ascii ".", ascii "a/"], ∃ a, follow 10 .delete (ascii "/jobs/" ++ id) = some a ∧
      ∀ x, a ≠ .handle (.deleteJob x)) := by
  have e1 : follow 10 .delete (ascii "/jobs/" ++ ascii ".") = some (.handle .list) := by decide +kernel
  have e2 : follow 10 .delete (ascii "/jobs/" ++ ascii "a/") = some (.handle .page) := by decide +kernel
  refine ⟨?_, ?_, ?_⟩
  · unfold deleteTraceJobOK
    rw [deleteTraceJob_eq ep _ hh hp]
    dsimp only
    rw [target_delete]
    dsimp only
    show (match follow 10 .delete (ascii "/jobs/" ++ ascii ".") with | none => false | some a => status h a == 200) = true
    rw [e1]
    simp [status, h1]
  · unfold deleteTraceJobOK
    rw [deleteTraceJob_eq ep _ hh hp]
    dsimp only
    rw [target_delete]
    dsimp only
    show (match follow 10 .delete (ascii "/jobs/" ++ ascii "a/") with | none => false | some a => status h a == 200) = true
    rw [e2]
    simp [status, h2]
  · intro id hid
    simp only [List.mem_cons, List.not_mem_nil, or_false] at hid
    rcases hid with rfl | rfl
    · exact ⟨_, e1, fun x e => by cases e⟩
    · exact ⟨_, e2, fun x e => by cases e⟩

/-- C74. ReadTraceJob reaches the stream of the job it names, for every plain id, and for any other id it
reaches no handler at all. -/
theorem c74_read (ep : Endpoint) (hh : HostName ep.host) (hp : 0 ≤ ep.port) (id : Str) (x : Handler) :
    (∃ q, (readTraceJob ep id).bind serve = some (.handle x, q)) ↔ PlainName id ∧ x = .watchJob id := by
  rw [readTraceJob_eq ep id hh hp]
  rw [Option.bind_some, serve_read]
  constructor
  · rintro ⟨q, h⟩
    simp only [Option.some.injEq, Prod.mk.injEq] at h
    exact parts_read id x h.1
  · rintro ⟨h1, rfl⟩
    exact ⟨_, by rw [route_read id h1]⟩

/-- C74. The list of jobs is asked for where it is served. -/
theorem c74_list (ep : Endpoint) (hh : HostName ep.host) (hp : 0 ≤ ep.port) :
    (getJobs ep).bind serve = some (.handle .list, none) := by
  rw [getJobs_eq ep hh hp, Option.bind_some, serve_of _ .get _ _ (target_list ep) rfl]
  have : route .get (ascii "/jobs") = .handle .list := by decide +kernel
  rw [this]
  rfl

/-- C74. The paths ReadTrace asks for lead to the stream of the namespace, pod and container named,
wherever each of them is named together with those above it. (The paths are never sent:
`c56_readtrace_violated`.) -/
theorem c74_watch_partial (ns pod container : Str) (h1 : PlainName ns) :
    route .get (tracePath ns [] []) = .handle (.watchTrace ns [] []) ∧
    (PlainName pod → route .get (tracePath ns pod []) = .handle (.watchTrace ns pod [])) ∧
    (PlainName pod → PlainName container →
      route .get (tracePath ns pod container) = .handle (.watchTrace ns pod container)) ∧
    route .get (tracePath [] [] []) = .handle (.watchTrace [] [] []) := by
  refine ⟨?_, ?_, ?_, by decide +kernel⟩
  · have : tracePath ns [] [] = ascii "/trace/namespaces/" ++ ns ++ ascii "/ws" := by
      unfold tracePath; simp [h1.1]
    rw [this, route_ns ns h1]
  · intro h2
    have : tracePath ns pod [] = ascii "/trace/namespaces/" ++ ns ++ ascii "/pods/" ++ pod ++ ascii "/ws" := by
      unfold tracePath; simp [h1.1, h2.1]
    rw [this, route_pod ns pod h1 h2]
  · intro h2 h3
    have : tracePath ns pod container = ascii "/trace/namespaces/" ++ ns ++ ascii "/pods/" ++ pod ++
        ascii "/containers/" ++ container ++ ascii "/ws" := by
      unfold tracePath; simp [h1.1, h2.1, h3.1]
    rw [this, route_container ns pod container h1 h2 h3]

/-- C74 is violated by ReadTrace where a pod or a container is named without those above it: it asks for
everything. -/
theorem c74_watch_violated (pod container : Str) (ns : Str) :
    route .get (tracePath [] pod container) = .handle (.watchTrace [] [] []) ∧
    (container ≠ [] → route .get (tracePath ns [] container) = .handle (.watchTrace [] [] [])) := by
  have e : route .get (ascii "/trace/ws") = .handle (.watchTrace [] [] []) := by decide +kernel
  refine ⟨?_, fun h => ?_⟩
  · have : tracePath [] pod container = ascii "/trace/ws" := by unfold tracePath; simp
    rw [this, e]
  · have : tracePath ns [] container = ascii "/trace/ws" := by unfold tracePath; simp [h]
    rw [this, e]

end Swoll.Props.Client
