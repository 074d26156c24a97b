import Verif.Lemmas.Pages
/-
C137: the pages that show a stream.
-/
namespace Swoll.Props.Pages
open Swoll.Client Swoll.Spec.Client Swoll.Lemmas.Client Swoll.Pages Swoll.Spec.Pages Swoll.Lemmas.Pages

/-- A path with a page is about something, and with `/ws` behind it leads to the stream of that. -/
theorem page_about {m : Method} {path : Str} (h : route m path = .handle .page) :
    m = .get ∧ ∃ x, About path x ∧ route .get (path ++ ascii "/ws") = .handle x := by
  obtain ⟨l, hp, hl, hno⟩ := path_eq h
  obtain ⟨hc, r, hr, hmeth, vars, hm, hx⟩ := route_handle _ _ _ h
  rw [hl] at hm
  have hplain : (∃ s, l.getLast? = some s ∧ s ≠ []) → ∀ s ∈ l, PlainName s :=
    plain_of_clean hno (hp ▸ hc)
  have e1 : ∀ id : Str, joinSegs [ascii "jobs", id] = ascii "/jobs/" ++ id := by
    intro id
    have : ascii "/jobs/" = 47 :: (ascii "jobs" ++ [47]) := by decide
    rw [this]; simp [joinSegs]
  have e2 : joinSegs [ascii "trace"] = ascii "/trace" := by decide
  have e3 : ∀ ns : Str, joinSegs [ascii "trace", ascii "namespaces", ns] = ascii "/trace/namespaces/" ++ ns := by
    intro id
    have : ascii "/trace/namespaces/" = 47 :: (ascii "trace" ++ 47 :: (ascii "namespaces" ++ [47])) := by decide
    rw [this]; simp [joinSegs]
  have e4 : ∀ ns pod : Str, joinSegs [ascii "trace", ascii "namespaces", ns, ascii "pods", pod] =
      ascii "/trace/namespaces/" ++ ns ++ ascii "/pods/" ++ pod := by
    intro ns pod
    have : ascii "/trace/namespaces/" = 47 :: (ascii "trace" ++ 47 :: (ascii "namespaces" ++ [47])) := by decide
    have h3 : ascii "/pods/" = 47 :: (ascii "pods" ++ [47]) := by decide
    rw [this, h3]; simp [joinSegs]
  have e5 : ∀ ns pod c : Str, joinSegs [ascii "trace", ascii "namespaces", ns, ascii "pods", pod, ascii "containers", c] =
      ascii "/trace/namespaces/" ++ ns ++ ascii "/pods/" ++ pod ++ ascii "/containers/" ++ c := by
    intro ns pod c
    have : ascii "/trace/namespaces/" = 47 :: (ascii "trace" ++ 47 :: (ascii "namespaces" ++ [47])) := by decide
    have h3 : ascii "/pods/" = 47 :: (ascii "pods" ++ [47]) := by decide
    have h4 : ascii "/containers/" = 47 :: (ascii "containers" ++ [47]) := by decide
    rw [this, h3, h4]; simp [joinSegs]
  simp only [routes, List.mem_cons, List.not_mem_nil, or_false] at hr
  rcases hr with rfl | rfl | rfl | rfl | rfl | rfl | rfl | rfl | rfl | rfl | rfl | rfl | rfl | rfl | rfl
  all_goals dsimp only at hm hx hmeth
  all_goals try (cases hx; done)
  all_goals
    have hg : m = .get := by
      rcases hmeth with hmeth | hmeth
      · cases hmeth
      · exact (Option.some.inj hmeth).symm
    refine ⟨hg, ?_⟩
  · obtain ⟨_, rfl, k1⟩ := matchSegs_lit hm
    obtain ⟨id, _, _, rfl, hne, -, k2⟩ := matchSegs_var k1
    obtain ⟨rfl, -⟩ := matchSegs_nil k2
    have hi := hplain ⟨id, rfl, hne⟩ id (by simp)
    rw [hp, e1]
    exact ⟨_, .job hi, route_read id hi⟩
  · obtain ⟨rfl, -⟩ := matchSegs_end hm
    rw [hp, e2]
    exact ⟨_, .all, by decide +kernel⟩
  · obtain ⟨_, rfl, k1⟩ := matchSegs_lit hm
    obtain ⟨_, rfl, k2⟩ := matchSegs_lit k1
    obtain ⟨ns, _, _, rfl, hne, -, k3⟩ := matchSegs_var k2
    obtain ⟨rfl, -⟩ := matchSegs_nil k3
    have hi := hplain ⟨ns, rfl, hne⟩ ns (by simp)
    rw [hp, e3]
    exact ⟨_, .ns hi, route_ns ns hi⟩
  · obtain ⟨_, rfl, k1⟩ := matchSegs_lit hm
    obtain ⟨_, rfl, k2⟩ := matchSegs_lit k1
    obtain ⟨ns, _, _, rfl, -, -, k3⟩ := matchSegs_var k2
    obtain ⟨_, rfl, k4⟩ := matchSegs_lit k3
    obtain ⟨pod, _, _, rfl, hne, -, k5⟩ := matchSegs_var k4
    obtain ⟨rfl, -⟩ := matchSegs_nil k5
    have hall := hplain ⟨pod, rfl, hne⟩
    rw [hp, e4]
    exact ⟨_, .pod (hall ns (by simp)) (hall pod (by simp)), route_pod ns pod (hall ns (by simp)) (hall pod (by simp))⟩
  · obtain ⟨_, rfl, k1⟩ := matchSegs_lit hm
    obtain ⟨_, rfl, k2⟩ := matchSegs_lit k1
    obtain ⟨ns, _, _, rfl, -, -, k3⟩ := matchSegs_var k2
    obtain ⟨_, rfl, k4⟩ := matchSegs_lit k3
    obtain ⟨pod, _, _, rfl, -, -, k5⟩ := matchSegs_var k4
    obtain ⟨_, rfl, k6⟩ := matchSegs_lit k5
    obtain ⟨c, _, _, rfl, hne, -, k7⟩ := matchSegs_var k6
    obtain ⟨rfl, -⟩ := matchSegs_nil k7
    have hall := hplain ⟨c, rfl, hne⟩
    rw [hp, e5]
    exact ⟨_, .container (hall ns (by simp)) (hall pod (by simp)) (hall c (by simp)),
      route_container ns pod c (hall ns (by simp)) (hall pod (by simp)) (hall c (by simp))⟩

/-- C137: if a request is answered with a page, whatever the request is, then the websocket that the page opens leads to
the same server in the same way, and the server answers it with the stream that the page is about. -/
theorem c137_stream (page : Request) (query : Option Str) (h : serve page = some (.handle .page, query)) :
    ∃ path q x, parseTarget page.target = some (path, q) ∧ About path x ∧
      (opened page).host = page.host ∧ (opened page).tls = page.tls ∧ serve (opened page) = some (.handle x, none) := by
  unfold serve at h
  cases ht : parseTarget page.target with
  | none => rw [ht] at h; cases h
  | some pq =>
    obtain ⟨path, q⟩ := pq
    rw [ht] at h
    simp only [Option.map_some, Option.some.injEq, Prod.mk.injEq] at h
    obtain ⟨hm, x, hx, hr⟩ := page_about h.1
    refine ⟨path, q, x, rfl, hx, rfl, rfl, ?_⟩
    unfold parseTarget at ht
    split at ht
    · rename_i hhead
      dsimp only at ht
      cases hu : unescape .path (cut 63 page.target).1 with
      | none => rw [hu] at ht; cases ht
      | some p =>
        rw [hu] at ht
        simp only [Option.map_some, Option.some.injEq, Prod.mk.injEq] at ht
        obtain ⟨rfl, -⟩ := ht
        have hq : (63 : Byte) ∉ pathname page.target := by
          unfold pathname
          generalize page.target = t
          induction t with
          | nil => simp [cut]
          | cons c cs ih =>
            rw [cut]
            split
            · simp
            · rename_i hc
              simp only [List.mem_cons, not_or]
              exact ⟨fun e => hc e.symm, ih⟩
        have h1 : (pathname page.target).head? = some 47 := by
          unfold pathname
          cases hT : page.target with
          | nil => rw [hT] at hhead; cases hhead
          | cons c cs =>
            rw [hT] at hhead
            simp only [List.head?_cons, Option.some.injEq] at hhead
            subst hhead
            rw [cut, if_neg (by decide)]
            rfl
        have hcut : cut 63 (opened page).target = (pathname page.target ++ ascii "/ws", none) := by
          show cut 63 (pathname page.target ++ ascii "/ws") = _
          apply cut_none
          intro hmem
          rcases List.mem_append.1 hmem with hmem | hmem
          · exact hq hmem
          · exact absurd hmem (by decide)
        have h2 : (opened page).target.head? = some 47 := by
          show (pathname page.target ++ ascii "/ws").head? = _
          rw [List.head?_append, h1]
          rfl
        unfold serve
        have hpt : parseTarget (opened page).target = some (p ++ ascii "/ws", []) := by
          unfold parseTarget
          rw [if_pos h2]
          dsimp only
          rw [hcut]
          dsimp only
          rw [show unescape .path (pathname page.target ++ ascii "/ws") = _ from unescape_ws _ _ hu]
          rfl
        rw [hpt]
        show some (route .get (p ++ ascii "/ws"), _) = _
        rw [hr]
        rfl
    · cases ht

/-- C137: every job, namespace, pod and container whose name can be part of a path has a page, and so has the whole. -/
theorem c137_every (id ns pod c : Str) (h1 : PlainName id) (h2 : PlainName ns) (h3 : PlainName pod) (h4 : PlainName c) :
    route .get (ascii "/jobs/" ++ id) = .handle .page ∧ route .get (ascii "/trace") = .handle .page ∧
    route .get (ascii "/trace/namespaces/" ++ ns) = .handle .page ∧
    route .get (ascii "/trace/namespaces/" ++ ns ++ ascii "/pods/" ++ pod) = .handle .page ∧
    route .get (ascii "/trace/namespaces/" ++ ns ++ ascii "/pods/" ++ pod ++ ascii "/containers/" ++ c) =
      .handle .page := by
  have e1 : ascii "/jobs/" = 47 :: (ascii "jobs" ++ [47]) := by decide
  have e2 : ascii "/trace/namespaces/" = 47 :: (ascii "trace" ++ 47 :: (ascii "namespaces" ++ [47])) := by decide
  have e3 : ascii "/pods/" = 47 :: (ascii "pods" ++ [47]) := by decide
  have e4 : ascii "/containers/" = 47 :: (ascii "containers" ++ [47]) := by decide
  refine ⟨?_, by decide +kernel, ?_, ?_, ?_⟩
  · rw [show ascii "/jobs/" ++ id = joinSegs [ascii "jobs", id] by rw [e1]; simp [joinSegs], route_plain _ _ (by
      intro s hs
      simp only [List.mem_cons, List.not_mem_nil, or_false] at hs
      rcases hs with rfl | rfl
      · exact jobs_plain
      · exact h1) (by simp)]
    simp [routes, matchRoutes, matchSegs, h1.1]
  · rw [show ascii "/trace/namespaces/" ++ ns = joinSegs [ascii "trace", ascii "namespaces", ns] by
      rw [e2]; simp [joinSegs], route_plain _ _ (by
      intro s hs
      simp only [List.mem_cons, List.not_mem_nil, or_false] at hs
      rcases hs with rfl | rfl | rfl
      · exact trace_plain
      · exact namespaces_plain
      · exact h2) (by simp)]
    simp [routes, matchRoutes, matchSegs, h2.1, tj, nw]
  · rw [show ascii "/trace/namespaces/" ++ ns ++ ascii "/pods/" ++ pod =
      joinSegs [ascii "trace", ascii "namespaces", ns, ascii "pods", pod] by
      rw [e2, e3]; simp [joinSegs], route_plain _ _ (by
      intro s hs
      simp only [List.mem_cons, List.not_mem_nil, or_false] at hs
      rcases hs with rfl | rfl | rfl | rfl | rfl
      · exact trace_plain
      · exact namespaces_plain
      · exact h2
      · exact pods_plain
      · exact h3) (by simp)]
    simp [routes, matchRoutes, matchSegs, h2.1, h3.1, tj, nw, pw]
  · rw [show ascii "/trace/namespaces/" ++ ns ++ ascii "/pods/" ++ pod ++ ascii "/containers/" ++ c =
      joinSegs [ascii "trace", ascii "namespaces", ns, ascii "pods", pod, ascii "containers", c] by
      rw [e2, e3, e4]; simp [joinSegs], route_plain _ _ (by
      intro s hs
      simp only [List.mem_cons, List.not_mem_nil, or_false] at hs
      rcases hs with rfl | rfl | rfl | rfl | rfl | rfl | rfl
      · exact trace_plain
      · exact namespaces_plain
      · exact h2
      · exact pods_plain
      · exact h3
      · exact containers_plain
      · exact h4) (by simp)]
    simp [routes, matchRoutes, matchSegs, h2.1, h3.1, h4.1, tj, nw, pw, cw]

/-- The page of a job whose id has a space, and a query behind it. -/
example : serve ⟨true, ascii "node:9095", .get, ascii "/jobs/my%20job?x=1"⟩ = some (.handle .page, none) ∧
    serve (opened ⟨true, ascii "node:9095", .get, ascii "/jobs/my%20job?x=1"⟩) =
      some (.handle (.watchJob (ascii "my job")), none) := by decide +kernel

/-- The page of a pod. -/
example : serve (opened ⟨false, ascii "node:9095", .get, ascii "/trace/namespaces/kube-system/pods/web-0"⟩) =
    some (.handle (.watchTrace (ascii "kube-system") (ascii "web-0") []), none) := by decide +kernel

end Swoll.Props.Pages
