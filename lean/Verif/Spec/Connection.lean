import Verif.Spec.Calls
import Verif.Model.Connection

/-!
What the requests of a connection are answered when each is handled alone.
-/

namespace Kagome

/-- What comes of one request, handled alone: the answer, or a panic. The picture of a graph has names for its nodes (addresses, printed with `fmt`);
different nodes have different ones. -/
def HandledAlone (t : Tokenizer) (ideo : Nat → Bool) (short : Bool) (viz : Graphviz) (fmt : Addr → Bytes) (q : WebRequest) (o : Option WebAnswer) : Prop :=
  ∃ f : Ptr → Addr,
    (∀ g, exportGraph t ideo (formValue q.http (str "s")) (demoMode (formValue q.http (str "r"))) = some g → KeepsApart f g) ∧
    serveRequest t ideo short viz (fun p => fmt (f p)) q = o

/-- The answers on a connection: one for each request, in order, up to the first request whose handler panics. -/
inductive AnsweredAll (t : Tokenizer) (ideo : Nat → Bool) (short : Bool) (viz : Graphviz) (fmt : Addr → Bytes) : List WebRequest → List WebAnswer → Prop
  | nil : AnsweredAll t ideo short viz fmt [] []
  | cons {q : WebRequest} {a : WebAnswer} {qs : List WebRequest} {as : List WebAnswer} (h : HandledAlone t ideo short viz fmt q (some a))
      (hs : AnsweredAll t ideo short viz fmt qs as) : AnsweredAll t ideo short viz fmt (q :: qs) (a :: as)
  | closed {q : WebRequest} {qs : List WebRequest} (h : HandledAlone t ideo short viz fmt q none) : AnsweredAll t ideo short viz fmt (q :: qs) []

end Kagome
