import Verif.Lemmas.SiteServe
import Verif.Props.Site
/-
C126: the server in a cluster shows the clients of a job what the job is about, from the pods on.
-/
namespace Swoll.Props.SiteServe
open Swoll Swoll.Site Swoll.Spec.Site Swoll.Lemmas.Site Swoll.Lemmas.SiteSync Swoll.Lemmas.SiteServe
open Swoll.Cluster (Key Pod Api Watcher Sel selects selected serverObserver)
open Swoll.Spec.Cluster (Wants GoodLabels GoodFields)
open Swoll.Spec.Service (Answered Serves Rests)
open Swoll.Spec.Daemon (Made BeginsCallOf Routes Reports KeepsApart users Handed)
open Swoll.Hash (crcString)

variable {a : Api} {tbl : Syscalls.Syscalls} {srt : List PubSub.Env → List PubSub.Env}

/-- Nobody takes away the rules for a container of a pod that stays. -/
theorem undisturbed {o : Topology.Observer} {ops : List Op} {z : Site}
    (h : run a tbl crcString srt (fresh tbl o) ops = some z) (hd : Dotless ops) (ho : Orderly ops)
    {cc : Topology.CriContainer} (hst : Steady ops cc) {pod : Pod} (hstay : Stays ops pod) (hdot : '.' ∉ pod.ns.toList)
    {c : Topology.Container} (hl : Lives cc pod.key c) :
    (∀ x ∈ z.service.log, ∀ nr, ¬ Spec.Daemon.Disturbs tbl c.pidns nr x) ∧
    ∀ j ns nr, .push j ns nr ∈ z.service.log → j.rate ≤ 0 := by
  have hi := (inv_run h).1
  have hq := quiet_run hi.log (by
    intro q u ok b hb
    rcases logged_from h _ hb with ⟨-, e⟩ | ⟨ns, sel, q', u', ok', b', e, e'⟩ | ⟨ev, e⟩ | ⟨p, ev, e⟩
    · cases e
    · injection e' with _ _ _ e'
      subst e'
      exact ho.unsampled _ (asked_mem e)
    · cases e
    · cases e)
  refine ⟨?_, fun j ns nr hx => ((hq.log _ hx).2.1) j ns nr rfl⟩
  intro x hx nr hdis
  obtain ⟨q1, -, q3⟩ := hq.log x hx
  cases x with
  | addSampled k n r f => exact q1 _ _ _ _ rfl
  | removeSyscall k n =>
    obtain ⟨p, c', hm, he⟩ := q3 k n rfl
    obtain ⟨sc, -, -, hbv⟩ := hdis
    obtain ⟨w, e, c'', -, e1, e2, pd, -, -, -, -, l, cc', hr, hcc, -, -, hn⟩ := hi.told p _ hm
    injection e1 with e1
    subst e1
    injection e2 with e2
    subst e2
    obtain ⟨r1, r2⟩ := ho.inodes l cc' _ hr hcc hn
    obtain ⟨l0, rest, hfirst⟩ := hst.first
    have hrun0 : .runtime (some l0) ∈ ops := by rw [hfirst]; simp
    obtain ⟨l0', el, hm0⟩ := hst.listed _ hrun0
    injection el with el
    subst el
    obtain ⟨r3, r4⟩ := ho.inodes l0 cc _ hrun0 hm0 hl.pidns
    have : n = c.pidns := by
      have := congrArg BitVec.toNat hbv
      simp only [BitVec.toNat_ofInt] at this
      omega
    have hm' : some ⟨1, some c'⟩ ∈ told z (some p) := by
      unfold told
      exact List.mem_filterMap.2 ⟨_, hm, by simp⟩
    have := (told_only hl hdot h hst hd hstay hm' (by rw [he, this])).1
    cases this
  | _ => cases hdis

/-- C126 (partial): a pod is there, and stays there as it is; the server's observer has seen it, and so has that of a
job that was asked for and whose goroutine has done its work.  From then on every call that the request names, made
in a container of that pod that the request names, is reported: when the queues of the daemon are empty again an
event that says what the call was, and in which container, has been handed to everyone who was watching the job at
that time, and, once each, to everyone who was watching the container, its pod or its namespace.  (As everywhere, if the checksum of the paths keeps the names involved apart.)  Missing: pods
labelled `swoll=false`, which are not reported (C121); pods that change, and other jobs' pods that do: then the
claim is false (`c126_neighbour_violated`); refused rules (C87), sampled jobs (C119), match expressions (C120). -/
theorem c126_shown_partial (hT : Spec.Hub.TableOK tbl) (hsrt : PubSub.Node.IsSort srt)
    (hkey : a.rules.key "swoll".toList = true) (hv : a.rules.value "false".toList = true)
    {cri config root : String} {o : Topology.Observer} (hobs : serverObserver cri config root = some o)
    {ops1 ops2 : List Op} {s z : Site} (h1 : run a tbl crcString srt (fresh tbl o) ops1 = some s)
    (h2 : run a tbl crcString srt s ops2 = some z) (hc : Calm a tbl crcString srt (fresh tbl o) ops1)
    (hd : Dotless (ops1 ++ ops2)) (ho : Orderly (ops1 ++ ops2)) (hsane : ∀ x ∈ ops1 ++ ops2, Sane x)
    -- the pod, and one of its containers
    {pod : Pod} (hpod : s.pods.get pod.key = some pod) (hstay : Stays (ops1 ++ ops2) pod)
    (hshy : pod.labels.get "swoll".toList ≠ some "false".toList)
    {cc : Topology.CriContainer} (hst : Steady (ops1 ++ ops2) cc) {c : Topology.Container} (hl : Lives cc pod.key c)
    -- the request
    {i : Nat} {id : String} (ha : Answered s.service i id 201) (hid : id ≠ "") {ns : String} {sel : Sel} {b : Service.Body}
    (hask : (asked ops1)[i]? = some (ns, sel, b)) (hns : ns ≠ "") (hgl : GoodLabels a sel.label.matchLabels)
    (hgf : GoodFields a sel.field.matchLabels) (hx : sel.label.matchExpressions = [] ∧ sel.field.matchExpressions = [])
    (hwant : Wants ns sel pod) (hhost : b.hosts = [] ∨ c.name ∈ b.hosts)
    (hdel : .service (.delete id) ∉ ops1 ++ ops2)
    -- both observers have seen the pod
    (hhub : CaughtUp s.hub pod.key)
    (hjob : ∀ p w, Serves s.service p i id b → s.jobs[p]? = some w → CaughtUp w pod.key ∧ Rests s.service p)
    -- a thread makes a call, and everything is handled
    {name : String} (hname : name ∈ b.calls) {sc : Syscalls.Syscall} (hlook : Syscalls.lookup tbl (.str name) = some sc)
    (hidle : z.service.daemon.ring = [] ∧ z.service.daemon.msg = none)
    {e : Nat} {before : List Daemon.Op} {t0 t : Event.Task} {call : Event.Call} {scratch : Event.KEvent}
    (hm : Made z.service.log e before t0 t call scratch) (hpre : s.service.log <+: before)
    (hone : ∀ x ∈ (z.service.log.take e).drop (before.length + 1), ¬ BeginsCallOf t.tgid t.pid x)
    (hsame : t0.pidNs = t.pidNs) (hco : (t.pidNs.toNat : Int) = c.pidns) (hne : call.nr ≠ 59)
    (hdec : call.nr.toNat ∈ Spec.Event.decodable) (hnr : sc.nr = call.nr.toNat) :
    ∃ k ev, e < k ∧ Routes tbl crcString srt z.service.log k ev ∧ Reports tbl t call ev ∧ ev.container = some c.copy ∧
      (KeepsApart crcString (z.service.log.take k) c.copy sc → ∀ u ∈ users (z.service.log.take k),
        (u.target = .job id → ∃ n, 0 < n ∧ Handed tbl crcString srt z.service.log k u.token ev n) ∧
        (∀ path, u.target = .path path → Spec.Hash.meant path <+: Spec.Hash.meant [c.ns, c.pod, c.name] →
          Handed tbl crcString srt z.service.log k u.token ev 1)) := by
  have hfull : run a tbl crcString srt (fresh tbl o) (ops1 ++ ops2) = some z := by rw [run_append h1]; exact h2
  obtain ⟨hi, hsels, hbods⟩ := inv_run h1
  have hiz := (inv_run hfull).1
  have hput : .put pod ∈ ops1 := hi.pods (pod.key, pod) (GoMap.mem_of_get hpod)
  have hdot : '.' ∉ pod.ns.toList := hd pod (List.mem_append_left _ hput)
  have hd1 : Dotless ops1 := fun p hp => hd p (List.mem_append_left _ hp)
  have hst1 : Steady ops1 cc := by
    refine ⟨?_, fun x hx => hst.listed x (List.mem_append_left _ hx), fun l cc' hx => hst.alone l cc' (List.mem_append_left _ hx)⟩
    obtain ⟨l, rest, he⟩ := hst.first
    cases ops1 with
    | nil => cases hput
    | cons y ys =>
      rw [List.cons_append] at he
      injection he with e1 e2
      subst e1
      exact ⟨l, ys, rfl⟩
  have hstay1 : Stays ops1 pod :=
    ⟨fun hx => hstay.1 (List.mem_append_left _ hx), fun q hq => hstay.2 q (List.mem_append_left _ hq)⟩
  obtain ⟨hund, hrates⟩ := undisturbed hfull hd ho hst hstay hdot hl
  -- nobody deletes the job
  have hnodel : ∀ x ∈ z.service.log, x ≠ .delete id := by
    rintro x hx rfl
    rcases logged_from hfull _ ((deleted_run hiz.log).2 id hx) with ⟨q, -⟩ | ⟨_, _, _, _, _, _, -, q⟩ | ⟨_, q⟩ | ⟨_, _, q⟩
    · exact hdel q
    · cases q
    · cases q
    · cases q
  -- the goroutine of the job
  obtain ⟨b', hb', p, hserves, -⟩ := Props.Serving.c87_accepted hi.log ha (post := []) rfl
  have hbb : b' = b := by
    have : s.service.bodies[i]? = some b := by rw [hbods, List.getElem?_map, hask]; rfl
    rw [Lemmas.Service.bodies_run hi.log] at this
    have e0 : (Service.fresh tbl).bodies ++ Spec.Service.requests s.log = Spec.Service.requests s.log := rfl
    rw [e0, hb'] at this
    injection this
  subst hbb
  obtain ⟨pr, hpr, hspec⟩ := hserves
  obtain ⟨w, -, hw, -⟩ := hi.watch p pr hpr
  obtain ⟨hup, hrest⟩ := hjob p w ⟨pr, hpr, hspec⟩ hw
  have hres := (Props.Site.c122_job_partial h1 hc hd1 hst1 hdot hl hpr (by rw [hspec]; exact hask) hns hgl hgf hx hw hup).1
    ⟨pod, hpod, hwant⟩
  obtain ⟨-, ty, htold⟩ := Props.Site.resident_mem hres
  obtain ⟨rfl, -⟩ := told_only hl hdot h1 hst1 hd1 hstay1 htold rfl
  have hnot : .notice p (some ⟨0, some c⟩) ∈ s.log := by
    unfold told at htold
    obtain ⟨y, hy, ey⟩ := List.mem_filterMap.1 htold
    cases y with
    | notice q ev =>
      simp only [Option.ite_none_right_eq_some, Option.some.injEq] at ey
      obtain ⟨rfl, rfl⟩ := ey
      exact hy
    | _ => cases ey
  obtain ⟨pre, post, hsplit⟩ := List.append_of_mem hnot
  obtain ⟨x, pr0, hxrun, hxp, hxt⟩ := notice_at h1 hsplit
  have hxs : Service.run tbl crcString srt x (.notice p (some ⟨0, some c⟩) :: post) = some s.service := by
    have := hi.log
    rw [hsplit, Lemmas.Service.run_append, hxrun] at this
    exact this
  have hservesx : Serves x p i id b' := by
    obtain ⟨pr', g1, g2⟩ := Lemmas.Service.proc_run hxs hxp
    rw [hpr] at g1
    injection g1 with g1
    subst g1
    exact ⟨pr0, hxp, by rw [← g2]; exact hspec⟩
  obtain ⟨more, hmore⟩ := log_prefix h2
  have hz : Service.run tbl crcString srt s.service more = some z.service := by
    have := hiz.log
    rw [hmore, Lemmas.Service.run_append, hi.log] at this
    exact this
  obtain ⟨w2, hgrow⟩ := Lemmas.Service.log_grows hz
  obtain ⟨n, n1, n2, hcov⟩ := Props.Serving.c87_placed hT hservesx
    (by intro q hq; rw [hxp] at hq; injection hq with hq; subst hq; exact hxt) hl.pos hhost hxs
    (by
      intro f hf
      have : .work p f ∈ z.log := by rw [hmore, hsplit]; simp [hf]
      rcases logged_from hfull _ this with ⟨q, -⟩ | ⟨_, _, _, _, _, _, -, q⟩ | ⟨_, q⟩ | ⟨_, _, q⟩
      · exact ho.granted p f q
      · cases q
      · cases q
      · cases q)
    hrest hname hlook
    (fun y hy => hnodel y (by rw [hgrow]; exact List.mem_append_left _ (List.mem_of_mem_drop hy)))
  obtain ⟨w3, hbefore⟩ := hpre
  obtain ⟨w4, hlog⟩ : ∃ w4, z.service.log = before ++ w4 := by
    obtain ⟨_, _, _, _, _, q, _⟩ := hm
    have : z.service.log.take e ++ z.service.log.drop e = z.service.log := List.take_append_drop e _
    rw [q] at this
    exact ⟨_, by rw [← this, List.append_assoc]⟩
  have hlen : before.length ≤ e := by
    obtain ⟨_, _, _, _, _, q, _⟩ := hm
    have := congrArg List.length q
    simp only [List.length_take, List.length_append, List.length_cons] at this
    omega
  have hcov' : Spec.Daemon.Covers tbl before ⟨i, id, b'.rate⟩ t.pidNs.toNat call.nr.toNat := by
    have := hcov w3 (fun y hy => hnodel y (by rw [hlog, ← hbefore]; simp [hy]))
      (by
        rw [hbefore]
        intro y hy
        exact hund y (by rw [hlog]; exact List.mem_append_left _ (List.mem_of_mem_drop hy)) _)
    rw [hbefore, hnr] at this
    rw [hco]; exact this
  have hnum : ∀ op ∈ z.log, Spec.Service.Numbered op := by
    intro op hop
    unfold Spec.Service.Numbered
    split
    · intro _
      obtain ⟨w', e', c'', -, e1, e2, pd, -, -, -, -, l, cc', hr, hcc, -, -, hn⟩ := hiz.told _ _ hop
      injection e1 with e1
      subst e1
      injection e2 with e2
      subst e2
      exact ho.inodes l cc' _ hr hcc hn
    · trivial
  obtain ⟨k0, hk0, -, hserved⟩ := Props.Daemon.c77_complete_partial hT hsrt (Lemmas.Service.logged_run hiz.log) hidle
    (Lemmas.Service.sinv_run hiz.log).once
    (Lemmas.Service.sane_run hiz.log (Props.Site.sane_run hfull hsane (fun x hx => by cases hx)) (fun x hx => by cases hx))
    (Lemmas.Service.pairs_run hT hiz.log hnum).2 hm hone hsame hne hdec
    (by rw [← hnr]; exact (hT.1 _ _ hlook).1) hcov'
    (fun y hy => by exact hnodel y (List.mem_of_mem_drop hy))
  -- the daemon knows the container
  have htopo : ∀ {u : Site} {ops : List Op}, run a tbl crcString srt (fresh tbl o) ops = some u →
      u.service.log.filterMap Spec.Daemon.notice = told u none := by
    intro u ops hu
    rw [notices_run (inv_run hu).1.log]
    rfl
  have hconts := (Props.Site.c122_server_partial hkey hv hobs h1 hc hd1 hst1 hdot hl hhub).1 ⟨pod, hpod, hshy⟩
  unfold Spec.Daemon.containerOf at hconts
  obtain ⟨-, ty, htold'⟩ := Props.Site.resident_mem hconts
  have htold'' := htold'
  rw [htopo h1] at htold''
  obtain ⟨rfl, -⟩ := told_only hl hdot h1 hst1 hd1 hstay1 htold'' rfl
  have hcont : Spec.Daemon.containerOf (z.service.log.take k0) t.pidNs.toNat = some c := by
    rw [hco]
    unfold Spec.Daemon.containerOf
    refine resident_only hl.pos ?_ ?_
    · intro ty c' hty
      refine told_only hl hdot hfull hst hd hstay (i := none) ?_
      rw [← htopo hfull]
      obtain ⟨y, hy, ey⟩ := List.mem_filterMap.1 hty
      exact List.mem_filterMap.2 ⟨y, List.mem_of_mem_take hy, ey⟩
    · obtain ⟨y, hy, ey⟩ := List.mem_filterMap.1 htold'
      refine List.mem_filterMap.2 ⟨y, ?_, ey⟩
      have hl1 : s.service.log.length ≤ k0 := by
        have := congrArg List.length hbefore
        rw [List.length_append] at this
        omega
      rw [hgrow, List.take_append, List.take_of_length_le hl1]
      exact List.mem_append_left _ hy
  obtain ⟨k, ev, hk, hroutes, hsays, hcon, hreg, hhand⟩ := hserved c hcont
  refine ⟨k, ev, by omega, hroutes, hsays, hcon, ?_⟩
  intro happ u hu
  refine ⟨?_, ?_⟩
  rotate_left
  · intro path htar hp
    have := (hhand happ u hu).1 path htar
    rwa [if_pos] at this
    refine hp.trans ?_
    show Spec.Hash.meant [c.ns, c.pod, c.name] <+: Spec.Hash.meant ([c.ns, c.pod, c.name] ++ [sc.name])
    unfold Spec.Hash.meant
    rw [List.takeWhile_append]
    split
    · exact (List.takeWhile_prefix _).trans (List.prefix_append _ _)
    · exact List.prefix_refl _
  intro htar
  have hrate : ∀ r ∈ Spec.Daemon.wanting (z.service.log.take k) t.pidNs.toNat call.nr.toNat, r.job.id = id → r.job.rate ≤ 0 := by
    intro r hr _
    have hr := (List.mem_filter.1 hr).1
    exact hrates _ _ _ (List.mem_of_mem_take (Lemmas.Daemon.reg_pushed hr))
  refine ⟨_, ?_, (hhand happ u hu).2 id htar hid hrate⟩
  exact List.length_pos_of_mem (List.mem_filter.2 ⟨hreg, by simp⟩)

/-! ### A history that meets the hypotheses, and one that does not -/

open Swoll.Props.Cluster (someApi)
open Swoll.Props.Hub (demoTbl demo_ok)
open Swoll.Props.PubSub (isort isort_isSort)
open Swoll.Props.Daemon (calm)
open Swoll.Props.Service (called)
open Swoll.Props.Site (serverObs webPod nginx webCri webCont nginxSel play handed calm_of webLives nginx_good)
open Swoll.Props.Event (sampleTask sampleScratch sampleScratch_wf sampleMem)

theorem of_map {α β : Type} {o : Option α} {f : α → β} {v : β} (h : o.map f = some v) : ∃ s, o = some s ∧ f s = v :=
  Option.map_eq_some_iff.1 h

/-- The pod calls `openat`. -/
def calls : List Op := called.map .service ++ [.service (.outside (.route calm))]

def playLog : List Daemon.Op :=
  [.topo (some ⟨0, some webCont⟩), .act {}, .push ⟨0, "a", 0⟩ 4026531836 257, .addSyscall (.int 257) 4026531836 {},
   .attachTrace "a" 9]

def callsLog : List Daemon.Op :=
  [.enter sampleTask 257 1 1 [1, 2, 3] false, .exit sampleTask 257 3 1 2 sampleMem (some sampleScratch) false,
   .ingest, .route calm]

set_option maxRecDepth 1000000 in
theorem play_log : (run someApi demoTbl crcString isort (fresh demoTbl serverObs) play).map (·.service.log) = some playLog := by with_unfolding_all rfl

set_option maxRecDepth 1000000 in
theorem calls_log : (run someApi demoTbl crcString isort (fresh demoTbl serverObs) (play ++ calls)).map (·.service.log) =
    some (playLog ++ callsLog) := by with_unfolding_all rfl

theorem played : ∀ x ∈ play ++ calls, Sane x ∧ (∀ y, x = .runtime y → y = some [webCri]) ∧
    (∀ p, x = .put p → p = webPod nginx) ∧ (∀ k, x ≠ .remove k) ∧ (∀ p f, x = .service (.work p f) → f = {}) ∧
    (∀ id, x ≠ .service (.delete id)) := by
  have h16 : sampleTask.comm.length = 16 := by decide
  have hwf : ∀ s, some sampleScratch = some s → s.WF := by
    intro s e; injection e with e; subst e; exact sampleScratch_wf
  have hcalm : ∀ i, (calm i).Valid := fun _ _ m => List.Perm.refl m
  intro x hx
  simp only [play, calls, called, List.mem_append, List.mem_cons, List.mem_replicate, List.not_mem_nil, or_false, List.map_cons,
    List.map_nil] at hx
  rcases hx with (((rfl | rfl | rfl | rfl | rfl | rfl | rfl) | ⟨-, rfl⟩) | rfl | rfl | rfl | rfl | rfl | rfl | rfl) |
    (rfl | rfl | rfl) | rfl
  all_goals refine ⟨?_, ?_, ?_, ?_, ?_, ?_⟩
  all_goals first
    | trivial
    | exact ⟨h16, hwf⟩
    | exact hcalm
    | (intro y e; cases e; done)
    | (intro y e; injection e with e; exact e.symm)
    | (intro y f e; cases e; done)
    | (intro y f e; injection e with e; injection e with e1 e2; exact e2.symm)

/-- `c126_shown_partial`: the pod calls `openat` after a job for its calls has been asked for; all hypotheses are met,
so everyone who watches the job is handed the call. -/
example : ∃ z, run someApi demoTbl crcString isort (fresh demoTbl serverObs) (play ++ calls) = some z ∧
    ∃ k ev, 6 < k ∧ Routes demoTbl crcString isort z.service.log k ev ∧
      Reports demoTbl sampleTask ⟨257, fun i => [1, 2, 3].getD i 0, 1000, 1000, 1, 3, sampleMem, 2⟩ ev ∧
      ev.container = some webCont.copy ∧
      (KeepsApart crcString (z.service.log.take k) webCont.copy ⟨257, "sys_openat", "FileSystem", "Files"⟩ →
        ∀ u ∈ users (z.service.log.take k),
        (u.target = .job "a" → ∃ n, 0 < n ∧ Handed demoTbl crcString isort z.service.log k u.token ev n) ∧
        (∀ path, u.target = .path path → Spec.Hash.meant path <+: Spec.Hash.meant [webCont.ns, webCont.pod, webCont.name] →
          Handed demoTbl crcString isort z.service.log k u.token ev 1)) := by
  obtain ⟨s, hs, fs⟩ := of_map play_log
  obtain ⟨z, hz, fz⟩ := of_map calls_log
  obtain ⟨s', hs', f1⟩ := of_map (o := run someApi demoTbl crcString isort (fresh demoTbl serverObs) play)
    (f := fun s => (s.pods.get ("default", "web"), s.service.server.threads, s.service.procs.map (·.todo)))
    (v := (some (webPod nginx), [⟨"a", .done 201⟩], [[]])) (by decide +kernel)
  obtain ⟨s'', hs'', f2⟩ := of_map (o := run someApi demoTbl crcString isort (fresh demoTbl serverObs) play)
    (f := fun s => (s.hub :: s.jobs).map (fun w => (w.connected, w.queue, w.chan.length)))
    (v := [(true, [], 0), (true, [], 0)]) (by decide +kernel)
  obtain ⟨z', hz', g1⟩ := of_map (o := run someApi demoTbl crcString isort (fresh demoTbl serverObs) (play ++ calls))
    (f := fun s => (s.service.daemon.ring.length, s.service.daemon.msg.isNone)) (v := (0, true)) (by decide +kernel)
  obtain rfl : s = s' := Option.some.inj (hs.symm.trans hs')
  obtain rfl : s = s'' := Option.some.inj (hs.symm.trans hs'')
  obtain rfl : z = z' := Option.some.inj (hz.symm.trans hz')
  simp only [Prod.mk.injEq] at f1 g1
  obtain ⟨e1, e2, e3⟩ := f1
  obtain ⟨m1, m2⟩ := g1
  have hup : ∀ w ∈ s.hub :: s.jobs, CaughtUp w ("default", "web") := by
    intro w hw
    have : (w.connected, w.queue, w.chan.length) ∈ (s.hub :: s.jobs).map (fun w => (w.connected, w.queue, w.chan.length)) :=
      List.mem_map.2 ⟨w, hw, rfl⟩
    rw [f2] at this
    simp only [List.mem_cons, List.not_mem_nil, or_false, or_self, Prod.mk.injEq] at this
    obtain ⟨h1, h2, h3⟩ := this
    exact ⟨h1, (by rw [h2]; intro c hc; cases hc), List.length_eq_zero_iff.1 h3⟩
  refine ⟨z, hz, ?_⟩
  refine c126_shown_partial (a := someApi) (tbl := demoTbl) (srt := isort) (o := serverObs) (ops1 := play) (ops2 := calls)
    (pod := webPod nginx) (cc := webCri) (c := webCont) (cri := "") (config := "") (root := "")
    (ns := "default") (sel := nginxSel) (b := { hosts := [], calls := ["sys_openat"], rate := 0 }) (i := 0) (id := "a")
    (before := playLog) (t0 := sampleTask) (t := sampleTask) (scratch := sampleScratch) (name := "sys_openat") (s := s)
    demo_ok isort_isSort (by decide +kernel) (by decide +kernel) (by decide) hs (by rw [run_append hs] at hz; exact hz)
    (calm_of (by decide +kernel)) ?_ ?_ (fun x hx => (played x hx).1) e1 ?_ (by decide +kernel) ?_ webLives
    (by show s.service.server.threads[0]? = _; rw [e2]; rfl) (by decide) rfl (by decide) nginx_good.1 nginx_good.2 ⟨rfl, rfl⟩
    ?_ (Or.inl rfl) (fun hx => (played _ hx).2.2.2.2.2 "a" rfl) (hup _ List.mem_cons_self) ?_ List.mem_cons_self (by decide +kernel)
    ⟨List.length_eq_zero_iff.1 m1, Option.isNone_iff_eq_none.1 m2⟩ ?_ (by rw [fs]; exact List.prefix_refl _) ?_ rfl (by decide)
    (by decide) (by decide) rfl
  · intro p hp
    rw [(played _ hp).2.2.1 p rfl]
    decide +kernel
  · refine ⟨?_, fun p f hx => (played _ hx).2.2.2.2.1 p f rfl, ?_⟩
    · have : asked (play ++ calls) = [("default", nginxSel, { hosts := [], calls := ["sys_openat"], rate := 0 })] := by rfl
      intro x hx
      rw [this, List.mem_singleton] at hx
      subst hx
      decide
    · intro l cc n hr hc hn
      have := (played _ hr).2.1 _ rfl
      injection this with this
      subst this
      rw [List.mem_singleton] at hc
      subst hc
      injection hn with hn
      subst hn
      decide
  · exact ⟨fun hx => (played _ hx).2.2.2.1 _ rfl, fun q hq _ => (by rw [(played _ hq).2.2.1 q rfl]; exact ⟨rfl, rfl⟩)⟩
  · refine ⟨⟨_, _, rfl⟩, ?_, ?_⟩
    · intro x hx
      exact ⟨_, (played _ hx).2.1 _ rfl, List.mem_singleton.2 rfl⟩
    · intro l cc' hx hc _
      have := (played _ hx).2.1 _ rfl
      injection this with this
      subst this
      exact List.mem_singleton.1 hc
  · refine ⟨rfl, ⟨?_, (fun e he => by cases he)⟩, (fun k v h => by cases h), (fun e he => by cases he)⟩
    intro k v h
    exact h
  · intro p w _ hw
    refine ⟨hup w (List.mem_cons_of_mem _ (List.mem_of_getElem? hw)), ?_⟩
    intro pr' hpr'
    have : pr'.todo ∈ s.service.procs.map (·.todo) := List.mem_map.2 ⟨pr', List.mem_of_getElem? hpr', rfl⟩
    rw [e3] at this
    simpa using this
  · rw [fz]
    exact ⟨257, 1, [1, 2, 3], [], 1, rfl, rfl, rfl, rfl, (fun o ho => by cases ho), by decide, rfl, rfl, rfl⟩
  · rw [fz]
    intro x hx
    have : (List.take 6 (playLog ++ callsLog)).drop (playLog.length + 1) = [] := by rfl
    rw [this] at hx
    cases hx

/-- The pod has another label too, and somebody else asks for a job for the pods that have that one. -/
def both : GoMap JobArgs.Str JobArgs.Str := ("tier".toList, "front".toList) :: nginx

def frontSel : Sel := ⟨⟨[("tier".toList, "front".toList)], []⟩, ⟨[], []⟩⟩

def neighbours : List Op :=
  play.map (fun o => match o with | .put _ => .put (webPod both) | o => o) ++
  .create "default" frontSel (some "b") "v" true { hosts := [], calls := ["sys_openat"], rate := 0 } ::
  (List.replicate 4 (.service (.handle 1)) ++
  [.list (some 1), .handle (some 1) ("default", "web"), .tell (some 1), .service (.work 1 {}), .service (.work 1 {})])

/-- Then the pod loses the label that job `b` goes by; everybody sees that. -/
def parted : List Op :=
  neighbours ++ [.put (webPod nginx), .handle none ("default", "web"), .handle (some 0) ("default", "web"),
    .handle (some 1) ("default", "web"), .tell (some 1), .service (.work 1 {})]

/-- C126 violated: job `a` selects the pod all the time, its observer has seen it, the job is there and so is its
client; before the pod loses the label job `b` goes by, the client is handed the pod's call, and afterwards it is not:
the goroutine of job `b` took the rule away. -/
theorem c126_neighbour_violated :
    handed (neighbours ++ called.map .service) (.service (.outside (.route calm))) = some [(0, 4026531836, some "web")] ∧
    handed (parted ++ called.map .service) (.service (.outside (.route calm))) = some [] ∧
    (run someApi demoTbl crcString isort (fresh demoTbl serverObs) (parted ++ called.map .service)).map (fun s =>
      (Spec.Daemon.users s.service.log, s.service.server.threads, s.service.daemon.ring.length,
        (Spec.Daemon.wanting s.service.log 4026531836 257).map (·.job.id))) =
      some ([⟨0, .job "a"⟩], [⟨"a", .done 201⟩, ⟨"b", .done 201⟩], 0, ["a", "b"]) ∧
    (run someApi demoTbl crcString isort (fresh demoTbl serverObs) (parted ++ called.map .service)).map (fun s =>
      (s.pods.get ("default", "web"), (s.hub :: s.jobs).map (fun w => (w.connected, w.queue.length, w.chan.length)))) =
      some (some (webPod nginx), [(true, 0, 0), (true, 0, 0), (true, 0, 0)]) ∧
    Wants "default" nginxSel (webPod both) ∧ Wants "default" nginxSel (webPod nginx) := by
  refine ⟨by decide +kernel, by decide +kernel, by decide +kernel, by decide +kernel, ?_, ?_⟩
  · refine ⟨rfl, ⟨?_, (fun e he => by cases he)⟩, (fun k v h => by cases h), (fun e he => by cases he)⟩
    intro k v h
    have hm := GoMap.mem_of_get h
    simp only [nginxSel, nginx, List.mem_singleton, Prod.mk.injEq] at hm
    obtain ⟨rfl, rfl⟩ := hm
    decide +kernel
  · refine ⟨rfl, ⟨fun k v h => h, (fun e he => by cases he)⟩, (fun k v h => by cases h), (fun e he => by cases he)⟩

end Swoll.Props.SiteServe
