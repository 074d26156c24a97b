import Verif.Lemmas.JobArgs
/-
C72: what a trace resource says reaches the probes: the arguments the controller writes are what the
client reads.
-/
namespace Swoll.Props.JobArgs
open Swoll Swoll.JobArgs Swoll.Lemmas.JobArgs

/-- The string slices of pflag: whatever values a flag has, they are read back, but for a single
empty value, which is read as none. -/
theorem c72_flag_values (fs : List Str) : getStringSlice (writeAsCSV fs) =
    some (if fs = [[]] then [] else fs) := by
  rw [getStringSlice_eq, readAsCSV_write]
  unfold norm
  by_cases h : fs = [[]]
  · rw [if_pos h]; rfl
  · rw [if_neg h, Option.map_some, if_neg h]

example : getStringSlice (writeAsCSV ["a,b".toList, "\"".toList, []]) =
    some ["a,b".toList, "\"".toList, []] := by decide +kernel

/-- C72: the labels and the fields of a selector are read back by the client, for every set of
labels with valid keys and values, in whatever order the map yields them. -/
theorem c72_labels {r : Rules} {m : GoMap Str Str} (hn : GoMap.NodupKeys m)
    (hv : ∀ e ∈ m, validKey r e.1 = true ∧ validValue r e.2 = true) :
    ∃ m', labelsMap r (setString m) = some m' ∧ ∀ k, m'.get k = GoMap.get m k :=
  labels_roundtrip hn hv

example : let m := [("app".toList, "nginx".toList), ("a/tier".toList, [])]
    let r : Rules := ⟨fun _ => true, fun _ => true⟩
    GoMap.NodupKeys m ∧ ∀ e ∈ m, validKey r e.1 = true ∧ validValue r e.2 = true := by
  unfold GoMap.NodupKeys; decide +kernel

/-- C72, as far as it holds: with one endpoint and at most one host the client asks that endpoint
for what the resource says, with execve if no system call is named. Missing: the duration and the
sample rate, several endpoints and several hosts (all below). -/
theorem c72_as_written_partial {r : Rules} {t : Spec} {h p ns jobid : Str} {n : Int}
    (hh : ':' ∉ h) (hq : '"' ∉ h ∧ '"' ∉ p) (hp : atoi p = some n) (hns : ns ≠ [])
    (hhosts : t.hosts = [] ∨ ∃ host, t.hosts = [host] ∧ host ≠ [] ∧ '"' ∉ host)
    (hsc : ∀ sc ∈ t.syscalls, ',' ∉ sc ∧ '"' ∉ sc) (hsc' : t.syscalls ≠ [[]])
    (hl : GoMap.NodupKeys t.labels)
    (hlv : ∀ e ∈ t.labels, validKey r e.1 = true ∧ validValue r e.2 = true)
    (hf : GoMap.NodupKeys t.fields)
    (hfv : ∀ e ∈ t.fields, validKey r e.1 = true ∧ validValue r e.2 = true) :
    ∃ req, clientCreate r (jobArgs [h ++ ':' :: p] ns jobid t) = .ok req ∧
      req.endpoints = [(h, n)] ∧ req.ns = ns ∧ req.jobid = jobid ∧
      req.spec.hosts = t.hosts ∧
      req.spec.syscalls = (if t.syscalls = [] then ["sys_execve".toList] else t.syscalls) ∧
      (∀ k, req.spec.labels.get k = t.labels.get k) ∧
      (∀ k, req.spec.fields.get k = t.fields.get k) := by
  obtain ⟨ls, hls, hls'⟩ := labels_roundtrip hl hlv
  obtain ⟨fs, hfs, hfs'⟩ := labels_roundtrip hf hfv
  have he : getStringSlice ('"' :: (join ',' [h ++ ':' :: p] ++ ['"'])) = some [h ++ ':' :: p] := by
    rw [getStringSlice_quoted, if_neg]
    · rfl
    · simp [join]
    · simp only [join, List.mem_append, List.mem_cons, not_or]
      exact ⟨hq.1, by decide, hq.2⟩
  have hho : getStringSlice ('"' :: (join ',' t.hosts ++ ['"'])) = some t.hosts := by
    rcases hhosts with h | ⟨host, h, hne, hq⟩ <;> rw [h]
    · rfl
    · rw [show join ',' [host] = host from rfl, getStringSlice_quoted hq, if_neg hne]
  have hs : getStringSlice (join ',' (if t.syscalls = [] then ["sys_execve".toList] else t.syscalls)) =
      some (if t.syscalls = [] then ["sys_execve".toList] else t.syscalls) := by
    by_cases h0 : t.syscalls = []
    · simp only [h0, if_true]; decide +kernel
    · simp only [h0, if_false]; exact getStringSlice_plain h0 hsc' hsc
  have hep : endpoints [h ++ ':' :: p] = .ok [(h, n)] := by
    unfold endpoints
    rw [cut_of_not_mem h p hh]
    dsimp only
    rw [hp]
    rfl
  have hreq : clientCreate r (jobArgs [h ++ ':' :: p] ns jobid t) = .ok
      { endpoints := [(h, n)], ns := ns, jobid := jobid
        spec := { labels := ls, fields := fs, hosts := t.hosts
                  syscalls := if t.syscalls = [] then ["sys_execve".toList] else t.syscalls
                  duration := 0, sampleRate := 0 } } := by
    unfold clientCreate jobArgs
    dsimp only
    rw [he, hs, hho]
    dsimp only
    rw [hep]
    dsimp only
    rw [if_neg hns, hls, hfs]
  exact ⟨_, hreq, rfl, rfl, rfl, rfl, rfl, hls', hfs'⟩

/-- A resource that asks for opens and closes of one container of a labelled pod. -/
def someSpec : Spec :=
  { labels := [("app".toList, "nginx".toList)], fields := [], hosts := ["web".toList]
    syscalls := ["sys_open".toList, "sys_close".toList], duration := 10, sampleRate := 7 }

example : let r : Rules := ⟨fun _ => true, fun _ => true⟩
    (':' ∉ "10.0.0.1".toList) ∧ ('"' ∉ "10.0.0.1".toList ∧ '"' ∉ "9095".toList) ∧
    atoi "9095".toList = some 9095 ∧
    (∃ host, someSpec.hosts = [host] ∧ host ≠ [] ∧ '"' ∉ host) ∧
    (∀ sc ∈ someSpec.syscalls, ',' ∉ sc ∧ '"' ∉ sc) ∧ someSpec.syscalls ≠ [[]] ∧
    GoMap.NodupKeys someSpec.labels ∧
    (∀ e ∈ someSpec.labels, validKey r e.1 = true ∧ validValue r e.2 = true) := by
  unfold GoMap.NodupKeys
  exact ⟨by decide, by decide, by decide +kernel, ⟨_, rfl, by decide, by decide⟩, by decide,
    by decide, by decide, by decide +kernel⟩

/-- C72, but a trace that names several hosts gets one host whose name is all of them joined by
commas, because the arguments are quoted: it is none of the names in the resource, and no container
can have it. This is so for all names without quotes. -/
theorem c72_hosts_violated {r : Rules} {t : Spec} {eps : List Str} {ns jobid : Str} {req : Request}
    (hq : ∀ host ∈ t.hosts, '"' ∉ host) (hmany : 2 ≤ t.hosts.length)
    (h : clientCreate r (jobArgs eps ns jobid t) = .ok req) :
    ∃ host, req.spec.hosts = [host] ∧ ',' ∈ host := by
  have hcomma : ',' ∈ join ',' t.hosts := by
    match hh : t.hosts, hmany with
    | a :: b :: l, _ => simp [join]
  refine ⟨join ',' t.hosts, ?_, hcomma⟩
  have hjq : '"' ∉ join ',' t.hosts := fun hm => by
    obtain ⟨f, hf, hm⟩ := mem_join (by decide) hm
    exact hq f hf hm
  have hjn : join ',' t.hosts ≠ [] := fun hj => by
    rcases join_nil hj with h | h <;> rw [h] at hmany <;> exact absurd hmany (by simp)
  unfold clientCreate jobArgs at h
  dsimp only at h
  rw [getStringSlice_quoted hjq, if_neg hjn] at h
  split at h
  · next e1 e2 e3 =>
    injection e3 with e3
    split at h
    · exact nomatch h
    · exact nomatch h
    · split at h
      · exact nomatch h
      · split at h
        · injection h with h
          rw [← h, ← e3]
        · exact nomatch h
  · exact nomatch h

example : (match clientCreate ⟨fun _ => true, fun _ => true⟩ (jobArgs ["a:1".toList] "ns".toList
    "id".toList { someSpec with hosts := ["web".toList, "db".toList] }) with
    | .ok req => req.spec.hosts == ["web,db".toList]
    | _ => false) = true := by decide +kernel

/-- C72, but with several endpoints no trace is created at all: the client takes them for one, whose
port is not a number, and exits. By default there is an endpoint for each node of the cluster. -/
theorem c72_endpoints_violated {r : Rules} {t : Spec} {h p e : Str} {es : List Str} {ns jobid : Str}
    (hh : ':' ∉ h) (hq : ∀ x ∈ (h ++ ':' :: p) :: e :: es, '"' ∉ x) :
    clientCreate r (jobArgs ((h ++ ':' :: p) :: e :: es) ns jobid t) = .fatal := by
  have hjq : '"' ∉ join ',' ((h ++ ':' :: p) :: e :: es) := fun hm => by
    obtain ⟨f, hf, hm⟩ := mem_join (by decide) hm
    exact hq f hf hm
  have hj : join ',' ((h ++ ':' :: p) :: e :: es) = h ++ ':' :: (p ++ ',' :: join ',' (e :: es)) := by
    simp [join]
  have hep : endpoints [h ++ ':' :: (p ++ ',' :: join ',' (e :: es))] = .fatal := by
    unfold endpoints
    rw [cut_of_not_mem h _ hh]
    dsimp only
    rw [atoi_comma]
  unfold clientCreate jobArgs
  dsimp only
  rw [getStringSlice_quoted hjq, hj, if_neg (by simp)]
  split
  · next e1 e2 e3 =>
    injection e1 with e1
    rw [← e1, hep]
  · rfl

example : ∀ x ∈ ["10.0.0.1".toList ++ ':' :: "9095".toList, "10.0.0.2:9095".toList], '"' ∉ x := by
  decide

/-- C72, but the duration and the sample rate never reach the probes. -/
theorem c72_rate_violated {r : Rules} {t : Spec} {eps : List Str} {ns jobid : Str} {req : Request}
    (h : clientCreate r (jobArgs eps ns jobid t) = .ok req) :
    req.spec.duration = 0 ∧ req.spec.sampleRate = 0 := by
  unfold clientCreate at h
  split at h
  · split at h
    · exact nomatch h
    · exact nomatch h
    · split at h
      · exact nomatch h
      · split at h
        · injection h with h
          rw [← h]
          exact ⟨rfl, rfl⟩
        · exact nomatch h
  · exact nomatch h

example : (match clientCreate ⟨fun _ => true, fun _ => true⟩ (jobArgs ["a:1".toList] "ns".toList
    "id".toList someSpec) with
    | .ok _ => someSpec.sampleRate != 0
    | _ => false) = true := by decide +kernel

/-- An endpoint without a port makes the client crash. -/
theorem c72_no_port_violated {r : Rules} {a : Args} {e : Str} {es : List Str} (hc : ':' ∉ e)
    (he : getStringSlice a.endpoints = some (e :: es)) (hs : (getStringSlice a.syscalls).isSome)
    (hh : (getStringSlice a.hosts).isSome) : clientCreate r a = .panic := by
  have hcut : cut ':' e = (e, none) := by
    clear he
    induction e with
    | nil => rfl
    | cons c e ih =>
      have h1 : c ≠ ':' := fun h => hc (h ▸ List.mem_cons_self ..)
      have := ih (fun h => hc (List.mem_cons_of_mem _ h))
      simp [cut, h1, this]
  obtain ⟨s, hs⟩ := Option.isSome_iff_exists.1 hs
  obtain ⟨h, hh⟩ := Option.isSome_iff_exists.1 hh
  unfold clientCreate
  rw [he, hs, hh]
  dsimp only
  unfold endpoints
  rw [hcut]

example : getStringSlice "localhost".toList = some ["localhost".toList] ∧ ':' ∉ "localhost".toList := by
  decide +kernel

end Swoll.Props.JobArgs
