import Verif.Model.Names
import Verif.Model.Startup
/-
The Helm chart, chart/: the names of its objects, the labels its objects select pods by, its ports, and the rights of its
accounts.

Simplification: both components are enabled, and of each object only the fields these are made of are kept. `helm`'s template functions are the library's.
-/
namespace Swoll.Chart
open Swoll.JobArgs (Str)

/-- `server.serviceAccount` and `controller.serviceAccount`. (chart/values.yaml:15-21) -/
structure Account where
  create : Bool
  name : Str
  deriving DecidableEq, Repr

/-- The values of an installation; a missing text is empty. (chart/values.yaml:1-21, chart/templates/_helpers.tpl:6, 15-18) -/
structure Values where
  nameOverride : Str
  fullnameOverride : Str
  nodePortService : Bool
  port : Nat
  targetPort : Nat
  nodePort : Nat
  serverAccount : Account
  controllerAccount : Account
  deriving DecidableEq, Repr

/-- chart/values.yaml:1-21. -/
def defaults : Values := ⟨[], [], true, 9095, 9095, 32095, ⟨true, []⟩, ⟨true, []⟩⟩

/-- `.Release` and the versions of `.Chart`. (chart/Chart.yaml:5-6, used at chart/templates/_helpers.tpl:19-46) -/
structure Release where
  name : Str
  ns : Str
  version : Str
  appVersion : Str
  deriving DecidableEq, Repr

/-- `default a b`. (Sprig, used at chart/templates/_helpers.tpl:6, 18, 62) -/
def default (a b : Str) : Str := if b = [] then a else b

/-- `contains`. (Sprig, used at chart/templates/_helpers.tpl:19) -/
def contains (sub : Str) : Str → Bool
  | [] => sub.isEmpty
  | c :: s => sub.isPrefixOf (c :: s) || contains sub s

/-- `trimSuffix "-"`. (Sprig, used at chart/templates/_helpers.tpl:6-23) -/
def trim (s : Str) : Str := if s.getLast? = some '-' then s.dropLast else s

/-- `trunc 63 | trimSuffix "-"`. (Sprig, used at chart/templates/_helpers.tpl:6-23) -/
def short (s : Str) : Str := trim (s.take 63)

/-- `.Chart.Name`. (chart/Chart.yaml:2) -/
def chartName : Str := "swoll".toList

/-- `swoll.name`. (chart/templates/_helpers.tpl:5-7) -/
def name (v : Values) : Str := short (default chartName v.nameOverride)

/-- `swoll.fullname`. (chart/templates/_helpers.tpl:14-25) -/
def fullname (v : Values) (r : Release) : Str :=
  if v.fullnameOverride ≠ [] then short v.fullnameOverride
  else if contains (default chartName v.nameOverride) r.name then short r.name
  else short (r.name ++ '-' :: default chartName v.nameOverride)

/-- `swoll.chart`. (chart/templates/_helpers.tpl:30-32) -/
def chart (r : Release) : Str := short ((chartName ++ '-' :: r.version).map fun c => if c = '+' then '_' else c)

/-- The two components. (chart/templates/server-daemonset.yaml:11, controller-deployment.yaml:14) -/
inductive Component where
  | server | controller
  deriving DecidableEq, Repr

/-- Their names. (chart/templates/server-daemonset.yaml:11, controller-deployment.yaml:14) -/
def Component.text : Component → Str
  | .server => "server".toList
  | .controller => "controller".toList

/-- `swoll.labels` and the component. (chart/templates/_helpers.tpl:37-46; server-daemonset.yaml:9-11, 16-17;
controller-deployment.yaml:12-14, 18-19; server-service.yaml:8-9) -/
def selector (v : Values) (r : Release) (c : Component) : List (Str × Str) :=
  [("helm.sh/chart".toList, chart r), ("app.kubernetes.io/name".toList, name v), ("app.kubernetes.io/instance".toList, r.name)] ++
  (if r.appVersion = [] then [] else [("app.kubernetes.io/version".toList, r.appVersion)]) ++
  [("app.kubernetes.io/managed-by".toList, "Helm".toList), ("app.kubernetes.io/component".toList, c.text)]

/-- The labels of a component's pods. (chart/templates/server-daemonset.yaml:15-18, controller-deployment.yaml:17-19) -/
def podLabels (v : Values) (r : Release) : Component → List (Str × Str)
  | .server => selector v r .server ++ [("swoll".toList, "false".toList)]
  | .controller => selector v r .controller

/-- What a selector selects. (Library, of chart/templates/server-service.yaml:7, server-daemonset.yaml:8) -/
def selects (sel labels : List (Str × Str)) : Bool := sel.all fun p => labels.lookup p.1 = some p.2

/-- The name of a component's objects. (chart/templates/server-service.yaml:5, server-daemonset.yaml:5,
controller-deployment.yaml:7, *-cluster-role.yaml:6, *-cluster-rolebinding.yaml:5) -/
def objectName (v : Values) (r : Release) (c : Component) : Str := fullname v r ++ '-' :: c.text

/-- The name of a component's account. (chart/templates/_helpers.tpl:59-73) -/
def accountName (v : Values) (r : Release) (c : Component) : Str :=
  let a := match c with | .server => v.serverAccount | .controller => v.controllerAccount
  if a.create then default (objectName v r c) a.name else default "default".toList a.name

/-- The kinds of objects in the chart. (chart/templates) -/
inductive Kind where
  | service | daemonSet | deployment | clusterRole | clusterRoleBinding | role | roleBinding | account
  deriving DecidableEq, Repr

/-- An object is known by its kind, its namespace, if it has one, and its name. (chart/templates) -/
structure Obj where
  kind : Kind
  ns : Option Str
  name : Str
  deriving DecidableEq, Repr

/-- All the objects of an installation. (chart/templates: server-service.yaml:5, server-daemonset.yaml:5,
server-cluster-role.yaml:5, server-cluster-rolebinding.yaml:5, controller-deployment.yaml:6, controller-cluster-role.yaml:6,
controller-cluster-rolebinding.yaml:5, controller-role.yaml:5, controller-rolebinding.yaml:5, *-service-account.yaml) -/
def objects (v : Values) (r : Release) : List Obj :=
  [⟨.service, some r.ns, objectName v r .server⟩, ⟨.daemonSet, some r.ns, objectName v r .server⟩,
   ⟨.clusterRole, none, objectName v r .server⟩, ⟨.clusterRoleBinding, none, objectName v r .server⟩,
   ⟨.deployment, some r.ns, objectName v r .controller⟩, ⟨.clusterRole, none, objectName v r .controller⟩,
   ⟨.clusterRoleBinding, none, objectName v r .controller⟩, ⟨.role, some r.ns, "swoll-leader-election-role".toList⟩,
   ⟨.roleBinding, some r.ns, objectName v r .controller⟩] ++
  (if v.serverAccount.create then [⟨.account, some r.ns, accountName v r .server⟩] else []) ++
  (if v.controllerAccount.create then [⟨.account, some r.ns, accountName v r .controller⟩] else [])

/-! ### Names -/

/-- `IsDNS1035Label`: the names of services. (Library, of chart/templates/server-service.yaml:5) -/
def isService (s : Str) : Bool := Names.isLabel s && s.head?.any fun c => 'a' ≤ c && c ≤ 'z'

/-- The names the API server takes for an object of a kind. (Library, of chart/templates) -/
def nameOk (o : Obj) : Bool := match o.kind with
  | .service => isService o.name
  | .clusterRole | .clusterRoleBinding | .role | .roleBinding => !o.name.isEmpty && !o.name.contains '/' && !o.name.contains '%'
  | _ => Names.isSubdomain o.name

/-- What the API server thinks of the names of an installation. (Library, of chart/templates) -/
def accepted (v : Values) (r : Release) : Bool :=
  (objects v r).all nameOk && [Component.server, .controller].all fun c => (podLabels v r c).all fun p => Names.isValue p.2

/-- The names `helm install` takes for a release. (Library, `action.ValidateName`; chart/) -/
def releaseOk (s : Str) : Bool := decide (s.length ≤ 53) && Names.isSubdomain s

/-! ### Ports -/

/-- The port the server listens on, on the network of its node. (chart/templates/server-daemonset.yaml:25, 38) -/
def serverPort (v : Values) : Nat := v.targetPort

/-- What the controller tells its jobs of the servers, given the addresses of the nodes: it is run without `--endpoints`.
(cmd/controller.go:94-107, chart/templates/controller-deployment.yaml:33-41) -/
def told (nodes : List (List Str)) : Option (List Str) := Startup.nodeEndpoints nodes

/-- May a second installation be made beside a first? `helm` refuses if an object exists, the API server if the port is
taken. (Library, of chart/templates/server-service.yaml:10-15) -/
def beside (v₁ : Values) (r₁ : Release) (v₂ : Values) (r₂ : Release) : Bool :=
  (objects v₁ r₁).all (fun o => !(objects v₂ r₂).contains o) &&
    !(v₁.nodePortService && v₂.nodePortService && v₁.nodePort == v₂.nodePort)

/-- May an installation be changed into another? The selectors cannot be.
(Library, of chart/templates/server-daemonset.yaml:8, controller-deployment.yaml:11) -/
def upgrade (v₁ : Values) (r₁ : Release) (v₂ : Values) (r₂ : Release) : Bool :=
  [Component.server, .controller].all fun c =>
    objectName v₁ r₁ c ≠ objectName v₂ r₂ c || selects (selector v₁ r₁ c) (selector v₂ r₂ c) &&
      selects (selector v₂ r₂ c) (selector v₁ r₁ c)

/-! ### Rights -/

/-- A `PolicyRule`. (chart/templates/controller-cluster-role.yaml:8-58) -/
structure Rule where
  group : String
  resource : String
  verbs : List String
  deriving DecidableEq, Repr

/-- The rules of the cluster roles. (chart/templates/server-cluster-role.yaml:6-9, controller-cluster-role.yaml:7-58) -/
def clusterRules : Component → List Rule
  | .server => [⟨"", "pods", ["get", "watch", "list"]⟩]
  | .controller =>
    [⟨"", "nodes", ["get", "list", "watch"]⟩,
     ⟨"batch", "jobs", ["create", "delete", "get", "list", "patch", "update", "watch"]⟩,
     ⟨"batch", "jobs/status", ["get"]⟩,
     ⟨"tools.swoll.criticalstack.com", "traces", ["create", "delete", "get", "list", "patch", "update", "watch"]⟩,
     ⟨"tools.swoll.criticalstack.com", "traces/status", ["get", "patch", "update"]⟩]

/-- The rules of the roles in the namespace of the release. (chart/templates/controller-role.yaml:7-35) -/
def roleRules : Component → List Rule
  | .server => []
  | .controller =>
    [⟨"", "configmaps", ["get", "list", "watch", "create", "update", "patch", "delete"]⟩,
     ⟨"", "configmaps/status", ["get", "update", "patch"]⟩,
     ⟨"", "events", ["create"]⟩]

/-- A request to the API server, in a namespace or in all. (Library, of cmd/controller.go:98, trace.go:113-212) -/
structure Req where
  group : String
  resource : String
  verb : String
  ns : Option Str
  deriving DecidableEq, Repr

/-- Does a rule allow a request? (Library, `rbac.RuleAllows`; chart/templates/*-role.yaml) -/
def Rule.allows (u : Rule) (q : Req) : Bool := u.group == q.group && u.resource == q.resource && u.verbs.contains q.verb

/-- May an account of a namespace make a request? By the bindings. (Library, `rbac.RBACAuthorizer`, of
chart/templates/*-cluster-rolebinding.yaml:6-13, controller-rolebinding.yaml:7-14) -/
def allowed (v : Values) (r : Release) (ns account : Str) (q : Req) : Bool :=
  [Component.server, .controller].any fun c => ns == r.ns && account == accountName v r c &&
    ((clusterRules c).any (·.allows q) || (q.ns == some r.ns && (roleRules c).any (·.allows q)))

/-- What the server asks for: the pods of the cluster, listed and watched. (pkg/topology/kubernetes.go:185-189, 371) -/
def serverAsks : List Req := [⟨"", "pods", "list", none⟩, ⟨"", "pods", "watch", none⟩]

/-- What the controller asks for on its start: the nodes, the traces of the cluster, and to be the leader.
(cmd/controller.go:81-88, 98; trace.go:227) -/
def controllerAsks (r : Release) : List Req :=
  [⟨"", "nodes", "list", none⟩,
   ⟨"tools.swoll.criticalstack.com", "traces", "list", none⟩, ⟨"tools.swoll.criticalstack.com", "traces", "watch", none⟩,
   ⟨"", "configmaps", "get", some r.ns⟩, ⟨"", "configmaps", "create", some r.ns⟩, ⟨"", "configmaps", "update", some r.ns⟩,
   ⟨"", "events", "create", some r.ns⟩]

/-- What it asks for a trace of a namespace. (trace.go:131, 148, 162, 179, 190, 212) -/
def traceAsks (ns : Str) : List Req :=
  [⟨"batch", "jobs", "create", some ns⟩, ⟨"batch", "jobs", "delete", some ns⟩,
   ⟨"tools.swoll.criticalstack.com", "traces", "update", some ns⟩]

/-- The event that tells of its job. (trace.go:183) -/
def eventAsk (ns : Str) : Req := ⟨"", "events", "create", some ns⟩

/-- What the proxy before the controller's metrics asks for of each request.
(`kube-rbac-proxy`, chart/templates/controller-deployment.yaml:23-29; config/rbac/auth_proxy_role.yaml:6-13) -/
def proxyAsks : List Req :=
  [⟨"authentication.k8s.io", "tokenreviews", "create", none⟩, ⟨"authorization.k8s.io", "subjectaccessreviews", "create", none⟩]

end Swoll.Chart
