import Verif.Spec.Client
/-
What a page of the server is about.
-/
namespace Swoll.Spec.Pages
open Swoll.Client Swoll.Spec.Client

/-- The stream that a person expects to see on the page at this path: that of the job; or of everything, a namespace, a
pod or a container. -/
inductive About : Str → Handler → Prop where
  | job {id : Str} : PlainName id → About (ascii "/jobs/" ++ id) (.watchJob id)
  | all : About (ascii "/trace") (.watchTrace [] [] [])
  | ns {ns : Str} : PlainName ns → About (ascii "/trace/namespaces/" ++ ns) (.watchTrace ns [] [])
  | pod {ns pod : Str} : PlainName ns → PlainName pod →
    About (ascii "/trace/namespaces/" ++ ns ++ ascii "/pods/" ++ pod) (.watchTrace ns pod [])
  | container {ns pod c : Str} : PlainName ns → PlainName pod → PlainName c →
    About (ascii "/trace/namespaces/" ++ ns ++ ascii "/pods/" ++ pod ++ ascii "/containers/" ++ c)
      (.watchTrace ns pod c)

end Swoll.Spec.Pages
