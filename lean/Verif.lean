import Verif.Props.Segmentation
import Verif.Props.Modes
import Verif.Props.Token
import Verif.Props.Filter
import Verif.Props.FilterExact
import Verif.Props.Stop
import Verif.Props.Splitter
import Verif.Props.Chunks
import Verif.Props.Feeds
import Verif.Props.SentenceDialog
import Verif.Props.FilterRun
import Verif.Props.InPlace
import Verif.Props.Resplit
import Verif.Props.Graph
import Verif.Props.Cmd
import Verif.Props.Output
import Verif.Props.LongLine
import Verif.Props.Json
import Verif.Props.Long
import Verif.Props.Wrap
import Verif.Props.Pool
import Verif.Props.Commands
import Verif.Props.ResplitCommand
import Verif.Props.SplitEffort
import Verif.Props.ReadBack
import Verif.Props.ReadJson
import Verif.Props.SplitFirst
import Verif.Props.Demo
import Verif.Props.Pipe
import Verif.Props.Lifetime
import Verif.Props.Api
import Verif.Props.Request
import Verif.Props.Text
import Verif.Props.DotText
import Verif.Props.LatticeApi
import Verif.Props.Growing
import Verif.Props.SearchMode
import Verif.Props.Renumber
import Verif.Props.Scale
import Verif.Props.Fewer
import Verif.Props.Tuning
import Verif.Props.Tables
import Verif.Props.Effort
import Verif.Props.Choice
import Verif.Props.FilterLaws
import Verif.Props.Keys
import Verif.Props.Usage
import Verif.Props.Examples
import Verif.Props.Page
import Verif.Props.Live
import Verif.Props.LiveText
import Verif.Props.Form
import Verif.Props.Failure
import Verif.Props.Sink
import Verif.Props.LatticeText
import Verif.Props.Browser
import Verif.Props.Dialog
import Verif.Props.Local
import Verif.Props.Connection
import Verif.Props.Handed
import Verif.Example.Mini
import Verif.Example.TestsSentence
import Verif.Example.TestsFilter
import Verif.Example.TestsTokenizer
import Verif.Example.TestsCmd
import Verif.Example.TestsReadme
import Verif.Spec.Keep
import Verif.Props.Keep
import Verif.Model.ProgLattice
import Verif.Proof.PoolLattice
import Verif.Props.Lattices
import Verif.Props.Nested
import Verif.Props.Drawn
import Verif.Props.Sessions
import Verif.Props.GraphSize
