import Verif.Model.Order
import Verif.Props.SiteServe
import Verif.Lemmas.Order
import Verif.Lemmas.WireShape
/-
C128: what a trace resource asks for is shown, from the resource on.
-/
namespace Swoll.Props.Order
open Swoll Swoll.Site Swoll.Order Swoll.Spec.Site
open Swoll.Cluster (Pod Api Sel serverObserver)
open Swoll.Spec.Cluster (Wants GoodLabels GoodFields)
open Swoll.Spec.Service (Answered Serves Rests)
open Swoll.Spec.Daemon (Made BeginsCallOf Routes Reports KeepsApart users Handed)
open Swoll.Hash (crcString)
open Swoll.JobArgs (Str validKey validValue)

variable {a : Api} {tbl : Syscalls.Syscalls} {srt : List PubSub.Env → List PubSub.Env}

theorem mem_asked {pre post : List Op} {ns : String} {q : Sel} {id : Option String} {uuid : String} {ok : Bool} {b : Service.Body} :
    (asked (pre ++ .create ns q id uuid ok b :: post))[(asked pre).length]? = some (ns, q, b) := by
  unfold asked
  rw [List.filterMap_append, List.getElem?_append_right (Nat.le_refl _), Nat.sub_self]
  rfl

theorem labels_read {r : JobArgs.Rules} {args : JobArgs.Args} {req : JobArgs.Request}
    (h : JobArgs.clientCreate r args = .ok req) :
    req.spec.labels.NodupKeys ∧ req.spec.fields.NodupKeys ∧ req.spec.sampleRate = 0 ∧ req.spec.duration = 0 := by
  unfold JobArgs.clientCreate at h
  split at h
  · split at h
    · cases h
    · cases h
    · split at h
      · cases h
      · split at h
        · next _ _ e1 e2 =>
          injection h with h
          subst h
          exact ⟨Props.Cluster.nodup_labelsMap e1, Props.Cluster.nodup_labelsMap e2, rfl, rfl⟩
        · cases h
  · cases h

/-- What the client has written is what the server reads. -/
theorem received_eq {r : JobArgs.Request} (h : Spec.Wire.Values (written r)) (uuid : String) :
    ∃ s : Wire.Spec, Spec.Wire.SameSpec (written r) s ∧ s.label.labels.NodupKeys ∧ s.field.labels.NodupKeys ∧
      received r uuid = .create (String.ofList r.ns) (sel s)
        (if r.jobid = [] then none else some (String.ofList r.jobid)) uuid true (body s) := by
  refine ⟨Lemmas.Wire.canonSpec (written r), Lemmas.Wire.same_spec h,
    ((Lemmas.Wire.canonMap_perm _).map Prod.fst).nodup_iff.2 h.1,
    ((Lemmas.Wire.canonMap_perm _).map Prod.fst).nodup_iff.2 h.2.1, ?_⟩
  have hr : Wire.readSpec (Wire.requestBody (written r)) = some (Lemmas.Wire.canonSpec (written r)) := by
    have := Lemmas.Json.first_says (rest := []) Lemmas.Json.space_nil
      (Lemmas.Json.text_says _ (Lemmas.Wire.fine_ofSpec (written r))) (by intro l e; unfold Wire.ofSpec at e; cases e)
    rw [List.nil_append, List.append_nil] at this
    unfold Wire.readSpec Wire.requestBody
    rw [this]
    exact Lemmas.Wire.spec_ofSpec h
  unfold received arrives
  rw [hr]

/-- C128 (partial): the controller makes a command line of a trace resource, the client makes a request of the
command line, and the server gets the request, as number `(asked pre).length`, and answers it with 201.  Then
what C126 says of a job holds of the resource: once the server and the job have seen a pod that the resource selects,
and that stays as it is, every call that the resource names, made in a container of that pod that the resource
names, is handed to everyone who watches the job of the resource, and to everyone who watches the container, its pod
or its namespace.  Missing: what is missing in C126, and of the resource: several endpoints and hosts, and the sample
rate, which are not handed on (C72); no request asks for sampling. -/
theorem c128_shown_partial (hT : Spec.Hub.TableOK tbl) (hsrt : PubSub.Node.IsSort srt)
    (hkey : a.rules.key "swoll".toList = true) (hv : a.rules.value "false".toList = true)
    {cri config root : String} {o : Topology.Observer} (hobs : serverObserver cri config root = some o)
    -- the resource
    {t : JobArgs.Spec} {h p ns jobid : Str} {port : Int} (hh : ':' ∉ h) (hq : '"' ∉ h ∧ '"' ∉ p)
    (hp : JobArgs.atoi p = some port) (hns : ns ≠ []) (hid : jobid ≠ [])
    (hhosts : t.hosts = [] ∨ ∃ host, t.hosts = [host] ∧ host ≠ [] ∧ '"' ∉ host)
    (hsc : ∀ sc ∈ t.syscalls, ',' ∉ sc ∧ '"' ∉ sc) (hsc' : t.syscalls ≠ [[]])
    (hgl : GoodLabels a t.labels) (hgf : GoodFields a t.fields)
    (hfv : ∀ e ∈ t.fields, validKey a.rules e.1 = true ∧ validValue a.rules e.2 = true) :
    -- the request
    ∃ req, JobArgs.clientCreate a.rules (JobArgs.jobArgs [h ++ ':' :: p] ns jobid t) = .ok req ∧
      req.endpoints = [(h, port)] ∧ req.spec.sampleRate = 0 ∧ ∀ {pre mid ops2 : List Op} {uuid : String} {s z : Site},
    run a tbl crcString srt (fresh tbl o) (pre ++ received req uuid :: mid) = some s →
    run a tbl crcString srt s ops2 = some z →
    ∀ {id : String}, Answered s.service (asked pre).length id 201 → id = String.ofList jobid ∧ (
    .service (.delete (String.ofList jobid)) ∉ pre ++ received req uuid :: mid ++ ops2 →
    Calm a tbl crcString srt (fresh tbl o) (pre ++ received req uuid :: mid) →
    Dotless (pre ++ received req uuid :: mid ++ ops2) → Orderly (pre ++ received req uuid :: mid ++ ops2) →
    (∀ x ∈ pre ++ received req uuid :: mid ++ ops2, Sane x) →
    -- the pod, and one of its containers
    ∀ {pod : Pod}, s.pods.get pod.key = some pod → Stays (pre ++ received req uuid :: mid ++ ops2) pod →
    pod.labels.get "swoll".toList ≠ some "false".toList →
    ∀ {cc : Topology.CriContainer}, Steady (pre ++ received req uuid :: mid ++ ops2) cc →
    ∀ {c : Topology.Container}, Lives cc pod.key c →
    Wants (String.ofList ns) ⟨⟨t.labels, []⟩, ⟨t.fields, []⟩⟩ pod → (t.hosts = [] ∨ c.name.toList ∈ t.hosts) →
    -- both observers have seen the pod
    CaughtUp s.hub pod.key →
    (∀ (q : Nat) (w : Cluster.Watcher) (pr : Service.Proc), s.service.procs[q]? = some pr → pr.spec.job.ref = (asked pre).length → s.jobs[q]? = some w →
      CaughtUp w pod.key ∧ pr.todo = []) →
    -- a thread makes a call, and everything is handled
    ∀ {name : String}, name.toList ∈ (if t.syscalls = [] then ["sys_execve".toList] else t.syscalls) →
    ∀ {sc : Syscalls.Syscall}, Syscalls.lookup tbl (.str name) = some sc →
    z.service.daemon.ring = [] ∧ z.service.daemon.msg = none →
    ∀ {e : Nat} {before : List Daemon.Op} {t0 th : Event.Task} {call : Event.Call} {scratch : Event.KEvent},
    Made z.service.log e before t0 th call scratch → s.service.log <+: before →
    (∀ x ∈ (z.service.log.take e).drop (before.length + 1), ¬ BeginsCallOf th.tgid th.pid x) →
    t0.pidNs = th.pidNs → (th.pidNs.toNat : Int) = c.pidns → call.nr ≠ 59 →
    call.nr.toNat ∈ Spec.Event.decodable → sc.nr = call.nr.toNat →
    ∃ k ev, e < k ∧ Routes tbl crcString srt z.service.log k ev ∧ Reports tbl th call ev ∧ ev.container = some c.copy ∧
      (KeepsApart crcString (z.service.log.take k) c.copy sc → ∀ u ∈ users (z.service.log.take k),
        (u.target = .job (String.ofList jobid) → ∃ n, 0 < n ∧ Handed tbl crcString srt z.service.log k u.token ev n) ∧
        (∀ path, u.target = .path path → Spec.Hash.meant path <+: Spec.Hash.meant [c.ns, c.pod, c.name] →
          Handed tbl crcString srt z.service.log k u.token ev 1))) := by
  obtain ⟨req, r1, r2, r3, r4, r5, r6, r7, r8⟩ := Props.JobArgs.c72_as_written_partial (r := a.rules) (t := t)
    (jobid := jobid) hh hq hp hns hhosts hsc hsc' hgl.1 hgl.2 hgf.1 hfv
  obtain ⟨nx, ny, nz, nd⟩ := labels_read r1
  have str : ∀ {x : Str}, x ≠ [] → String.ofList x ≠ "" := by
    intro x hx e
    apply hx
    have := congrArg String.toList e
    simpa using this
  refine ⟨req, r1, r2, nz, ?_⟩
  intro pre mid ops2 uuid s z
  obtain ⟨got, ⟨⟨g1, g2⟩, ⟨g3, g4⟩, g5, g6, -, g7⟩, n1, n2, hgot⟩ := received_eq (r := req)
    ⟨nx, ny, by show _ < req.spec.duration; rw [nd]; decide, by show req.spec.duration < _; rw [nd]; decide,
      by show _ ≤ req.spec.sampleRate; rw [nz]; decide, by show req.spec.sampleRate < _; rw [nz]; decide⟩ uuid
  rw [hgot]
  have gl : GoodLabels a got.label.labels := by
    refine ⟨n1, fun e he => hgl.2 e ?_⟩
    have := GoMap.get_of_mem n1 (k := e.1) (v := e.2) he
    rw [← g1] at this
    exact GoMap.mem_of_get ((r7 _).symm.trans this)
  have gf : GoodFields a got.field.labels := by
    refine ⟨n2, fun e he => hgf.2 e ?_⟩
    have := GoMap.get_of_mem n2 (k := e.1) (v := e.2) he
    rw [← g3] at this
    exact GoMap.mem_of_get ((r8 _).symm.trans this)
  intro h1 h2 id hans
  obtain rfl : id = String.ofList jobid := by
    refine Lemmas.Order.answered_id ?_ h1 hans
    show some (Option.getD (if req.jobid = [] then none else some (String.ofList req.jobid)) uuid) = _
    rw [r4, if_neg hid]
    rfl
  refine ⟨rfl, ?_⟩
  intro hdel hc hd ho hsane pod hpod hstay hshy cc hst c hl hwant hhost hhub hjob name
    hname sc hlook hidle e before t0 th call scratch hm hpre hone hsame hco hne hdec hnr
  refine Props.SiteServe.c126_shown_partial hT hsrt hkey hv hobs h1 h2 hc hd ho hsane hpod hstay hshy hst hl hans
    (str hid) mem_asked (by rw [r3]; exact str hns) gl gf ⟨?_, ?_⟩ ?_ ?_ hdel hhub ?_ ?_ hlook
    hidle hm hpre hone hsame hco hne hdec hnr
  · show got.label.exprs.filterMap _ = []
    rw [← g2]; rfl
  · show got.field.exprs.filterMap _ = []
    rw [← g4]; rfl
  · obtain ⟨w1, ⟨w2, -⟩, ⟨w3, -⟩⟩ := hwant
    have x1 : (sel got).label.matchExpressions = [] := by
      show got.label.exprs.filterMap _ = []
      rw [← g2]; rfl
    have x2 : (sel got).field.matchExpressions = [] := by
      show got.field.exprs.filterMap _ = []
      rw [← g4]; rfl
    refine ⟨by rw [r3]; exact w1, ⟨?_, fun e he => by rw [x1] at he; cases he⟩, ⟨?_, fun e he => by rw [x2] at he; cases he⟩⟩
    · intro k v hk; exact w2 k v ((r7 k).symm.trans ((g1 k).trans hk))
    · intro k v hk; exact w3 k v ((r8 k).symm.trans ((g3 k).trans hk))
  · rcases hhost with hx | hx
    · left; show got.hosts.map String.ofList = []; rw [← g5]; show req.spec.hosts.map _ = []; rw [r5, hx]; rfl
    · right
      show c.name ∈ got.hosts.map String.ofList
      rw [← g5]
      show c.name ∈ req.spec.hosts.map String.ofList
      rw [r5]
      exact List.mem_map.2 ⟨_, hx, String.ofList_toList⟩
  · rintro q w ⟨pr, hpr, hspec⟩ hw
    obtain ⟨q1, q2⟩ := hjob q w pr hpr (by rw [hspec]) hw
    refine ⟨q1, ?_⟩
    intro pr' hpr'
    rw [hpr] at hpr'
    injection hpr' with hpr'
    subst hpr'
    exact q2
  · show name ∈ got.calls.map String.ofList
    rw [← g6]
    show name ∈ req.spec.syscalls.map String.ofList
    rw [r6]
    exact List.mem_map.2 ⟨_, hname, String.ofList_toList⟩

/-! ### An example: the job of C126 is what becomes of a resource -/

open Swoll.Lemmas.SiteServe (run_append)
open Swoll.Props.SiteServe (of_map calls playLog callsLog play_log calls_log played)
open Swoll.Props.Cluster (someApi)
open Swoll.Props.Hub (demoTbl demo_ok)
open Swoll.Props.PubSub (isort isort_isSort)
open Swoll.Props.Daemon (calm)
open Swoll.Props.Service (called)
open Swoll.Props.Site (serverObs webPod nginx webCri webCont nginxSel play handed calm_of webLives nginx_good)
open Swoll.Props.Event (sampleTask sampleScratch sampleScratch_wf sampleMem)

/-- "The calls of `openat` of nginx". -/
def webTrace : JobArgs.Spec := ⟨nginx, [], [], ["sys_openat".toList], 0, 0⟩

/-- What the client asks the server for. -/
def webRequest : JobArgs.Request :=
  ⟨[("10.0.0.7".toList, 9095)], "default".toList, "a".toList, ⟨nginx, [], [], ["sys_openat".toList], 0, 0⟩⟩

theorem webRequest_made : JobArgs.clientCreate someApi.rules
    (JobArgs.jobArgs ["10.0.0.7".toList ++ ':' :: "9095".toList] "default".toList "a".toList webTrace) = .ok webRequest := by
  decide +kernel

/-- Before and after the request is received. -/
def before : List Op := play.take 6
def after : List Op := play.drop 7

theorem play_received : before ++ received webRequest "u" :: after = play := by
  have : received webRequest "u" =
      .create "default" nginxSel (some "a") "u" true { hosts := [], calls := ["sys_openat"], rate := 0 } := by
    have h0 : Wire.readSpec (Wire.requestBody (written webRequest)) =
        some ⟨⟨nginx, []⟩, ⟨[], []⟩, [], ["sys_openat".toList], 0, 0⟩ := by decide +kernel
    have h1 : String.ofList webRequest.ns = "default" := by decide +kernel
    have h2 : String.ofList webRequest.jobid = "a" := by decide +kernel
    have h3 : body ⟨⟨nginx, []⟩, ⟨[], []⟩, [], ["sys_openat".toList], 0, 0⟩ =
        { hosts := [], calls := ["sys_openat"], rate := 0 } := by decide +kernel
    unfold received arrives
    rw [h0, h1, h2]
    show Op.create _ _ _ _ _ (body _) = _
    rw [h3]
    rfl
  rw [this]
  rfl

example : ∃ z, run someApi demoTbl crcString isort (fresh demoTbl serverObs) (play ++ calls) = some z ∧
    ∃ k ev, 6 < k ∧ Routes demoTbl crcString isort z.service.log k ev ∧
      Reports demoTbl sampleTask ⟨257, fun i => [1, 2, 3].getD i 0, 1000, 1000, 1, 3, sampleMem, 2⟩ ev ∧
      ev.container = some webCont.copy ∧
      (KeepsApart crcString (z.service.log.take k) webCont.copy ⟨257, "sys_openat", "FileSystem", "Files"⟩ →
        ∀ u ∈ users (z.service.log.take k),
        (u.target = .job "a" → ∃ n, 0 < n ∧ Handed demoTbl crcString isort z.service.log k u.token ev n) ∧
        (∀ path, u.target = .path path → Spec.Hash.meant path <+: Spec.Hash.meant [webCont.ns, webCont.pod, webCont.name] →
          Handed demoTbl crcString isort z.service.log k u.token ev 1)) := by
  obtain ⟨s, hs, fs⟩ := of_map play_log
  obtain ⟨z, hz, fz⟩ := of_map calls_log
  obtain ⟨s', hs', f1⟩ := of_map (o := run someApi demoTbl crcString isort (fresh demoTbl serverObs) play)
    (f := fun s => (s.pods.get ("default", "web"), s.service.server.threads, s.service.procs.map (·.todo)))
    (v := (some (webPod nginx), [⟨"a", .done 201⟩], [[]])) (by decide +kernel)
  obtain ⟨s'', hs'', f2⟩ := of_map (o := run someApi demoTbl crcString isort (fresh demoTbl serverObs) play)
    (f := fun s => (s.hub :: s.jobs).map (fun w => (w.connected, w.queue, w.chan.length)))
    (v := [(true, [], 0), (true, [], 0)]) (by decide +kernel)
  obtain ⟨z', hz', g1⟩ := of_map (o := run someApi demoTbl crcString isort (fresh demoTbl serverObs) (play ++ calls))
    (f := fun s => (s.service.daemon.ring.length, s.service.daemon.msg.isNone)) (v := (0, true)) (by decide +kernel)
  obtain rfl : s = s' := Option.some.inj (hs.symm.trans hs')
  obtain rfl : s = s'' := Option.some.inj (hs.symm.trans hs'')
  obtain rfl : z = z' := Option.some.inj (hz.symm.trans hz')
  simp only [Prod.mk.injEq] at f1 g1
  obtain ⟨e1, e2, e3⟩ := f1
  obtain ⟨m1, m2⟩ := g1
  have hup : ∀ w ∈ s.hub :: s.jobs, CaughtUp w ("default", "web") := by
    intro w hw
    have : (w.connected, w.queue, w.chan.length) ∈ (s.hub :: s.jobs).map (fun w => (w.connected, w.queue, w.chan.length)) :=
      List.mem_map.2 ⟨w, hw, rfl⟩
    rw [f2] at this
    simp only [List.mem_cons, List.not_mem_nil, or_false, or_self, Prod.mk.injEq] at this
    obtain ⟨h1, h2, h3⟩ := this
    exact ⟨h1, (by rw [h2]; intro c hc; cases hc), List.length_eq_zero_iff.1 h3⟩
  refine ⟨z, hz, ?_⟩
  obtain ⟨req, r1, -, -, r2⟩ := c128_shown_partial (a := someApi) (tbl := demoTbl) (srt := isort) (o := serverObs)
    (cri := "") (config := "") (root := "") (t := webTrace) (h := "10.0.0.7".toList) (p := "9095".toList)
    (ns := "default".toList) (jobid := "a".toList) (port := 9095)
    demo_ok isort_isSort (by decide +kernel) (by decide +kernel) (by decide) (by decide +kernel) (by decide +kernel)
    (by decide +kernel) (by decide +kernel) (by decide +kernel) (Or.inl rfl) (by decide +kernel) (by decide +kernel)
    nginx_good.1 nginx_good.2 (by intro e he; cases he)
  rw [webRequest_made] at r1
  injection r1 with r1
  subst r1
  have r3 := @r2 before after calls "u" s z
  rw [play_received] at r3
  refine r3 hs (by rw [run_append hs] at hz; exact hz)
    (id := "a") (by show s.service.server.threads[0]? = _; rw [e2]; rfl) |>.2 (fun hx => (played _ hx).2.2.2.2.2 "a" rfl)
    (calm_of (by decide +kernel)) ?_ ?_ (fun x hx => (played x hx).1) (pod := webPod nginx) e1 ?_ (by decide +kernel)
    (cc := webCri) ?_ (c := webCont) webLives ?_ (Or.inl rfl) (hup _ List.mem_cons_self) ?_ (name := "sys_openat")
    List.mem_cons_self (by decide +kernel)
    ⟨List.length_eq_zero_iff.1 m1, Option.isNone_iff_eq_none.1 m2⟩ (before := playLog) (t0 := sampleTask) (th := sampleTask)
    (scratch := sampleScratch) ?_ (by rw [fs]; exact List.prefix_refl _) ?_ rfl (by decide)
    (by decide) (by decide) rfl
  · intro p hp
    rw [(played _ hp).2.2.1 p rfl]
    decide +kernel
  · refine ⟨?_, fun p f hx => (played _ hx).2.2.2.2.1 p f rfl, ?_⟩
    · have : asked (play ++ calls) = [("default", nginxSel, { hosts := [], calls := ["sys_openat"], rate := 0 })] := by rfl
      intro x hx
      rw [this, List.mem_singleton] at hx
      subst hx
      decide
    · intro l cc n hr hc hn
      have := (played _ hr).2.1 _ rfl
      injection this with this
      subst this
      rw [List.mem_singleton] at hc
      subst hc
      injection hn with hn
      subst hn
      decide
  · exact ⟨fun hx => (played _ hx).2.2.2.1 _ rfl, fun q hq _ => (by rw [(played _ hq).2.2.1 q rfl]; exact ⟨rfl, rfl⟩)⟩
  · refine ⟨⟨_, _, rfl⟩, ?_, ?_⟩
    · intro x hx
      exact ⟨_, (played _ hx).2.1 _ rfl, List.mem_singleton.2 rfl⟩
    · intro l cc' hx hc _
      have := (played _ hx).2.1 _ rfl
      injection this with this
      subst this
      exact List.mem_singleton.1 hc
  · refine ⟨rfl, ⟨?_, (fun e he => by cases he)⟩, (fun k v h => by cases h), (fun e he => by cases he)⟩
    intro k v h
    exact h
  · intro p w pr' hpr' _ hw
    refine ⟨hup w (List.mem_cons_of_mem _ (List.mem_of_getElem? hw)), ?_⟩
    have : pr'.todo ∈ s.service.procs.map (·.todo) := List.mem_map.2 ⟨pr', List.mem_of_getElem? hpr', rfl⟩
    rw [e3] at this
    simpa using this
  · rw [fz]
    exact ⟨257, 1, [1, 2, 3], [], 1, rfl, rfl, rfl, rfl, (fun o ho => by cases ho), by decide, rfl, rfl, rfl⟩
  · rw [fz]
    intro x hx
    have : (List.take 6 (playLog ++ callsLog)).drop (playLog.length + 1) = [] := by rfl
    rw [this] at hx
    cases hx

end Swoll.Props.Order
