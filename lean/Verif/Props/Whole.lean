import Verif.Props.Runtime
import Verif.Props.SiteServe
import Verif.Props.Event
/-
C161: from the processes on a machine to the clients of a job.
-/
namespace Swoll.Props.Whole
open Swoll Swoll.Site Swoll.Spec.Site
open Swoll.Cluster (Key Pod Api Sel serverObserver)
open Swoll.Spec.Cluster (Wants GoodLabels GoodFields)
open Swoll.Spec.Service (Answered Serves Rests)
open Swoll.Spec.Daemon (Made BeginsCallOf Routes Reports KeepsApart users Handed)
open Swoll.Hash (crcString)
open Swoll.Json (Str)
open Swoll.Runtime (Listed ofListed)
open Swoll.Spec.Runtime (Names ProcFS Inhabits Stayed Asked)
open Swoll.Spec.Task (World Thread boot Layout Act)
open Swoll.Task (identify)

variable {a : Api} {tbl : Syscalls.Syscalls} {srt : List PubSub.Env → List PubSub.Env}

theorem asked_none (c : Listed) : Asked none c := fun _ _ h => by cases h

theorem of_criOne {cc : Topology.CriContainer} {k : Topology.Container} (h : Topology.criOne none cc = some k) :
    cc.pid = some k.pid ∧ cc.pidns = some k.pidns ∧
      k = { id := cc.id, pod := Topology.label cc "io.kubernetes.pod.name", sandbox := "", name := Topology.label cc "io.kubernetes.container.name",
            image := cc.image, ns := Topology.label cc "io.kubernetes.pod.namespace", labels := some cc.labels, pid := k.pid, pidns := k.pidns } := by
  unfold Topology.criOne at h
  simp only [Bool.false_eq_true, if_false] at h
  cases hp : cc.pid with
  | none => rw [hp] at h; cases h
  | some pid =>
    rw [hp] at h
    dsimp only at h
    cases hn : cc.pidns with
    | none => rw [hn] at h; cases h
    | some pidns =>
      rw [hn] at h
      dsimp only at h
      injection h with h
      subst h
      exact ⟨rfl, rfl, rfl⟩

/-- C161 (partial): a pod is there and stays as it is, and both observers have seen it; the runtime lists a container of it all through,
whose main process lives in a pid namespace and has stayed there, and swoll has read the files of that process at some time. A thread
that lives in that namespace, and has stayed there, makes a call that the request of a job names: then an event that says what the call
was, and that names the namespace, the pod and the container by the labels the runtime gave, is handed to everyone who was watching the
job. Missing: what is missing in C126 and C160. -/
theorem c161_shown_partial (hT : Spec.Hub.TableOK tbl) (hsrt : PubSub.Node.IsSort srt)
    (hkey : a.rules.key "swoll".toList = true) (hv : a.rules.value "false".toList = true)
    {cri config root' : String} {o : Topology.Observer} (hobs : serverObserver cri config root' = some o)
    {ops1 ops2 : List Op} {s z : Site} (h1 : run a tbl crcString srt (fresh tbl o) ops1 = some s)
    (h2 : run a tbl crcString srt s ops2 = some z) (hc : Calm a tbl crcString srt (fresh tbl o) ops1)
    (hd : Dotless (ops1 ++ ops2)) (ho : Orderly (ops1 ++ ops2)) (hsane : ∀ x ∈ ops1 ++ ops2, Sane x)
    -- the pod
    {pod : Pod} (hpod : s.pods.get pod.key = some pod) (hstay : Stays (ops1 ++ ops2) pod) (hnn : pod.name ≠ "" ∧ pod.ns ≠ "")
    (hshy : pod.labels.get "swoll".toList ≠ some "false".toList)
    -- the machine: what its processes did before and after the listing
    {i : BitVec 32} {past next : List (Nat × Act)} (hz : ∀ sp ∈ ((boot i).run past).spaces, sp.inum ≠ 0)
    {fs : Str → Option (BitVec 64)} {root : Str} {dirs : List Str} (hr : Names root dirs) (hfs : ProcFS ((boot i).run past) dirs fs)
    {lay : Layout} {cfg : Offsets.Config} {dp dn : BitVec 32} (ro : Props.Task.RightOffsets cfg dp dn lay)
    -- one of the containers of the pod
    {other : Str → Option Int} {l : Listed} (hst : Steady (ops1 ++ ops2) (ofListed other fs root l))
    (hl1 : GoMap.get l.labels "io.kubernetes.pod.name" = some pod.name) (hl2 : GoMap.get l.labels "io.kubernetes.pod.namespace" = some pod.ns)
    {cname : String} (hl3 : GoMap.get l.labels "io.kubernetes.container.name" = some cname)
    {home : Nat} (hin : Inhabits ((boot i).run past) past l home)
    -- the request
    {n : Nat} {id : String} (ha : Answered s.service n id 201) (hid : id ≠ "") {ns : String} {sel : Sel} {b : Service.Body}
    (hask : (asked ops1)[n]? = some (ns, sel, b)) (hns : ns ≠ "") (hgl : GoodLabels a sel.label.matchLabels)
    (hgf : GoodFields a sel.field.matchLabels) (hx : sel.label.matchExpressions = [] ∧ sel.field.matchExpressions = [])
    (hwant : Wants ns sel pod) (hhost : b.hosts = [] ∨ cname ∈ b.hosts)
    (hdel : .service (.delete id) ∉ ops1 ++ ops2)
    -- both observers have seen the pod
    (hhub : CaughtUp s.hub pod.key)
    (hjob : ∀ p w, Serves s.service p n id b → s.jobs[p]? = some w → CaughtUp w pod.key ∧ Rests s.service p)
    -- a thread that lives in the namespace makes a call, and everything is handled
    {u : Nat} {th : Thread} (hth : ((boot i).run (past ++ next)).threads[u]? = some th) (hhome : th.home = home) (hu : Stayed (past ++ next) u)
    {name : String} (hname : name ∈ b.calls) {sc : Syscalls.Syscall} (hlook : Syscalls.lookup tbl (.str name) = some sc)
    (hidle : z.service.daemon.ring = [] ∧ z.service.daemon.msg = none)
    {e : Nat} {before : List Daemon.Op} {t0 t : Event.Task} {call : Event.Call} {scratch : Event.KEvent}
    (hm : Made z.service.log e before t0 t call scratch) (hpre : s.service.log <+: before)
    (hone : ∀ x ∈ (z.service.log.take e).drop (before.length + 1), ¬ BeginsCallOf t.tgid t.pid x)
    (ht0 : t0.pidNs = (identify cfg dp dn (((boot i).run (past ++ next)).mem lay) (u + 1)).pidNs)
    (ht : t.pidNs = (identify cfg dp dn (((boot i).run (past ++ next)).mem lay) (u + 1)).pidNs) (hne : call.nr ≠ 59)
    (hdec : call.nr.toNat ∈ Spec.Event.decodable) (hnr : sc.nr = call.nr.toNat) :
    ∃ k ev c, e < k ∧ Routes tbl crcString srt z.service.log k ev ∧ Reports tbl t call ev ∧ ev.container = some c ∧
      c.id = l.id ∧ c.ns = pod.ns ∧ c.pod = pod.name ∧ c.name = cname ∧
      (KeepsApart crcString (z.service.log.take k) c sc → ∀ x ∈ users (z.service.log.take k),
        x.target = .job id → ∃ n, 0 < n ∧ Handed tbl crcString srt z.service.log k x.token ev n) := by
  obtain ⟨c, nr, sp, hk, k1, k2, k4, k6, k7, k5⟩ := Props.Runtime.found_later other hr (h2 := next) hfs ro (asked_none l) hin
  obtain ⟨g1, g2, g3⟩ := of_criOne hk
  have hpos : 0 < c.pidns := by
    rw [k4, ← k7]
    have := hz sp (List.mem_of_getElem? k6)
    have : sp.inum.toNat ≠ 0 := fun e => this (BitVec.eq_of_toNat_eq e)
    omega
  have lab : ∀ {x y : String}, GoMap.get l.labels x = some y → Topology.label (ofListed other fs root l) x = y := by
    intro x y hxy
    show (GoMap.get l.labels x).getD "" = y
    rw [hxy]
    rfl
  rw [lab hl1, lab hl2] at g3
  have n1 : c.name = cname := by rw [g3]; exact lab hl3
  have n2 : c.pod = pod.name := by rw [g3]
  have n3 : c.ns = pod.ns := by rw [g3]
  have hl : Lives (ofListed other fs root l) pod.key c := ⟨⟨hl1, hl2⟩, hnn, g1, g2, hpos, g3⟩
  obtain ⟨i1, i2⟩ := (k5 u th hth hu).1 hhome
  obtain ⟨k, ev, r1, r2, r3, r4, r5⟩ := Props.SiteServe.c126_shown_partial hT hsrt hkey hv hobs h1 h2 hc hd ho hsane hpod hstay hshy hst hl ha hid
    hask hns hgl hgf hx hwant (by rw [n1]; exact hhost) hdel hhub hjob hname hlook hidle hm hpre hone (ht0.trans ht.symm)
    (by rw [ht, i1, k4]) hne hdec hnr
  exact ⟨k, ev, c.copy, r1, r2, r3, r4, k1, n3, n2, n1, fun hka x hx hj => (r5 hka x hx).1 hj⟩

/-- C161 (partial): what somebody who watches a job is handed of a thread that has stayed in its pid namespace is a call that the request
of the job names, and the thread lives in the namespace of a container, of a name that the request has, of a pod that the request
selected. The listings may have been made at any times, with containers whose main processes had stayed where they lived. Missing: what
is missing in C124 and C160. -/
theorem c161_only_partial (hsrt : PubSub.Node.IsSort srt) {o : Topology.Observer}
    {ops : List Op} {s s' : Site} {op : Op} {out : List Daemon.Delivery}
    (h : run a tbl crcString srt (fresh tbl o) ops = some s) (ho : ∀ x ∈ ops ++ [op], Sane x)
    (hs : step a tbl crcString srt s op = some (s', out)) {tok : Nat} {ev : Event.TraceEvent Topology.Container}
    (hx : (tok, ev) ∈ out)
    -- the machine, and the listings
    {i : BitVec 32} {hist : List (Nat × Act)} (hnd : (((boot i).run hist).spaces.map (·.inum)).Nodup) {root : Str} {dirs : List Str}
    (hr : Names root dirs) {lay : Layout} {cfg : Offsets.Config} {dp dn : BitVec 32} (ro : Props.Task.RightOffsets cfg dp dn lay)
    {other : Str → Option Int}
    (hrt : ∀ l, .runtime (some l) ∈ ops → ∃ (past next : List (Nat × Act)) (fs : Str → Option (BitVec 64)) (ls : List Listed), hist = past ++ next ∧ ProcFS ((boot i).run past) dirs fs ∧
      l = ls.map (ofListed other fs root) ∧ ∀ c ∈ ls, ∃ home, Inhabits ((boot i).run past) past c home)
    -- the thread
    {u : Nat} {th : Thread} (hth : ((boot i).run hist).threads[u]? = some th) (hu : Stayed hist u)
    (hev : ev.pidNs = ((identify cfg dp dn (((boot i).run hist).mem lay) (u + 1)).pidNs.toNat : Int)) :
    ∃ c sc, ev.container = some c ∧ ev.syscall = some sc ∧ ∃ x ∈ Spec.Daemon.users s.service.log, x.token = tok ∧
      (Spec.Daemon.KeepsApart crcString s.service.log c sc → ∀ id, x.target = .job id → id ≠ "" →
        ∃ (n : Nat) (ns : String) (sel : Sel) (b : Service.Body) (t : Server.Thread String),
          (asked ops)[n]? = some (ns, sel, b) ∧ s.service.server.threads[n]? = some t ∧ t.id = id ∧
          (∃ call ∈ b.calls, ∃ sc', Syscalls.lookup tbl (.str call) = some sc' ∧ sc'.nr = sc.nr) ∧
          (ns ≠ "" → GoodLabels a sel.label.matchLabels → GoodFields a sel.field.matchLabels →
            sel.label.matchExpressions = [] → sel.field.matchExpressions = [] →
            ∃ p past next l, .put p ∈ ops ∧ Wants ns sel p ∧ hist = past ++ next ∧
              GoMap.get l.labels "io.kubernetes.pod.name" = some p.name ∧ GoMap.get l.labels "io.kubernetes.pod.namespace" = some p.ns ∧
              (b.hosts = [] ∨ (GoMap.get l.labels "io.kubernetes.container.name").getD "" ∈ b.hosts) ∧
              Inhabits ((boot i).run past) past l th.home)) := by
  obtain ⟨c, sc, e1, e2, x, hx1, hx2, H⟩ := Props.Site.c124_selected_partial (a := a) hsrt h ho hs hx
  refine ⟨c, sc, e1, e2, x, hx1, hx2, fun hk id hi hne => ?_⟩
  obtain ⟨n, ns, sel, b, t, q1, q2, q3, q4, q5⟩ := H hk id hi hne
  refine ⟨n, ns, sel, b, t, q1, q2, q3, q4, fun m1 m2 m3 m4 m5 => ?_⟩
  obtain ⟨p, name, r1, r2, ⟨l, cc, r3, r4, ⟨r5, r6⟩, r7, r8⟩, r9⟩ := q5 m1 m2 m3 m4 m5
  obtain ⟨past, next, fs, ls, rfl, hfs, rfl, hls⟩ := hrt l r3
  obtain ⟨l, hl, rfl⟩ := List.mem_map.1 r4
  obtain ⟨home, hin⟩ := hls l hl
  obtain ⟨k, nr, sp, hk', k1, k2, k4, -, -, k5⟩ := Props.Runtime.found_later other hr (h2 := next) hfs ro (asked_none l) hin
  obtain ⟨-, g2, -⟩ := of_criOne hk'
  rw [r8] at g2
  injection g2 with g2
  have : th.home = home := by
    by_cases q : th.home = home
    · exact q
    · refine absurd ?_ ((k5 u th hth hu).2 hnd q).1
      rw [hev, k4] at g2
      exact BitVec.eq_of_toNat_eq (by omega)
  rw [this]
  exact ⟨p, past, next, l, r1, r2, rfl, r5, r6, by rw [show (GoMap.get l.labels _).getD "" = name from r7]; exact r9, hin⟩

/-! ### A case: the container of the example of `c126_shown_partial`, on a machine -/

/-- The main process of the container is born, with number 100 outside; later it has a child. -/
def past : List (Nat × Act) := [(0, .forkNewPid 4026531836 fun s => if s = 0 then 100 else 1)]
def next : List (Nat × Act) := [(1, .fork fun s => if s = 0 then 101 else 2), (0, .unshareNewPid 4026532000)]

/-- What the runtime says. -/
def nginxListed : Listed :=
  ⟨"c1", "", Props.Site.webCri.labels, some [("info".toList, "{\"pid\":100,\"runtimeType\":\"runc\"}".toList)]⟩

def files : Str → Option (BitVec 64) := Props.Runtime.demoFS ((boot 4026531000).run past) []

/-- The hypotheses about the site are met by the example of `c126_shown_partial`, with this container; here are those about the machine. -/
theorem nginx_machine : ofListed (fun _ => none) files "/".toList nginxListed = Props.Site.webCri ∧
    Names "/".toList [] ∧ ProcFS ((boot 4026531000).run past) [] files ∧ (∀ sp ∈ ((boot 4026531000).run past).spaces, sp.inum ≠ 0) ∧
    (((boot 4026531000).run (past ++ next)).spaces.map (·.inum)).Nodup ∧
    Props.Task.RightOffsets [] 2720 120 Props.Task.demoLayout ∧
    Inhabits ((boot 4026531000).run past) past nginxListed 1 ∧ Stayed (past ++ next) 2 ∧
    (((boot 4026531000).run (past ++ next)).threads[2]?).map (·.home) = some 1 ∧
    Props.Event.sampleTask.pidNs = (identify [] 2720 120 (((boot 4026531000).run (past ++ next)).mem Props.Task.demoLayout) 3).pidNs := by
  refine ⟨?_, ⟨[[]], by decide +kernel, by decide +kernel, by decide +kernel⟩, Props.Runtime.demo_procFS (by decide +kernel), by decide +kernel,
    by decide +kernel, ⟨rfl, rfl⟩, ?_, ?_, by decide +kernel, by decide +kernel⟩
  · decide +kernel
  · have hd : ∃ ld, ((boot 4026531000).run past).threads[1]? = some ld ∧ ld.home = 1 ∧ ld.numbers.lookup 0 = some 100 := by decide +kernel
    obtain ⟨ld, h1, h2, h3⟩ := hd
    refine ⟨⟨1, 0⟩, by decide +kernel, ld, 100, h1, ?_, h2, h3,
      Props.Runtime.tells_of (before := []) (after := [("runtimeType".toList, .str "runc".toList)]) rfl (by decide +kernel) (by decide +kernel)⟩
    intro x hx h
    simp [past] at hx
    subst hx
    simp [Act.moves] at h
  · intro x hx h
    simp [past, next] at hx
    rcases hx with rfl | rfl | rfl <;> simp [Act.moves] at h

/-- The listings of the example of `c126_shown_partial` are those of this machine, and somebody is handed the call. -/
example : (∀ l, .runtime (some l) ∈ Props.Site.play ++ Props.SiteServe.calls → ∃ (p n : List (Nat × Act)) (fs : Str → Option (BitVec 64)) (ls : List Listed),
      past ++ next = p ++ n ∧ ProcFS ((boot 4026531000).run p) [] fs ∧ l = ls.map (ofListed (fun _ => none) fs "/".toList) ∧
      ∀ c ∈ ls, ∃ home, Inhabits ((boot 4026531000).run p) p c home) ∧
    Props.Site.handed (Props.Site.play ++ Props.Service.called.map .service) (.service (.outside (.route Props.Daemon.calm))) =
      some [(0, 4026531836, some "web")] := by
  refine ⟨?_, by decide +kernel⟩
  intro l hl
  have := (Props.SiteServe.played _ hl).2.1 _ rfl
  injection this with this
  subst this
  obtain ⟨h1, -, h3, -, -, -, h7, -⟩ := nginx_machine
  refine ⟨past, next, files, [nginxListed], rfl, h3, by rw [List.map_cons, h1]; rfl, ?_⟩
  intro c hc
  rw [List.mem_singleton] at hc
  subst hc
  exact ⟨1, h7⟩

end Swoll.Props.Whole
