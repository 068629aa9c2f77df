import Verif.Props.Nlri
import Verif.Spec.AsPath
import Verif.Lemmas.AsPath
import Verif.Lemmas.AsPathOps
import Verif.Props.AsPath
import Verif.Props.AsPathAcc
import Verif.Props.Community
import Verif.Props.Mpls
import Verif.Props.FlowSpec
import Verif.Props.Attr
import Verif.Props.AttrLayout
import Verif.Props.AttrSet
import Verif.Props.Bgp
import Verif.Props.MrtBody
import Verif.Props.Mrt
import Verif.Props.MrtRecord
import Verif.Props.Elem
import Verif.Props.ElemCalls
import Verif.Props.ElemBack
import Verif.Props.FilterText
import Verif.Props.Filter
import Verif.Props.FilterIter
import Verif.Props.Rtr
import Verif.Props.Utf8
import Verif.Props.Time
import Verif.Props.Bmp
import Verif.Props.Recovery
import Verif.Props.Encoder
import Verif.Props.Route
import Verif.Props.RouteErr
import Verif.Props.Display
import Verif.Props.Dissect
import Verif.Props.Diagnostic
import Verif.Props.Spans
import Verif.Props.Updates
import Verif.Props.TextDump
import Verif.Props.TextDetect
import Verif.Props.NoPanic
import Verif.Props.Json
import Verif.Props.RisLive
import Verif.Props.Cli
import Verif.Props.CliRun
import Verif.Props.Render
import Verif.Props.Wasm
import Verif.Props.Settings
import Verif.Props.Cache
import Verif.Props.RawRuns
import Verif.Props.LsAccess
import Verif.Props.Shared
import Verif.Props.JsonText
import Verif.Props.Families
import Verif.Props.NlriBuild
import Verif.Props.Concat
import Verif.Props.AttrOrder
import Verif.Props.Bounds
import Verif.Props.Keys
import Verif.Props.Rewrite
import Verif.Props.AsPathMore
import Verif.Props.RewriteFile
import Verif.Props.Envelopes
import Verif.Props.JsonAttrs
import Verif.Props.JsonRead
import Verif.Props.JsonDocs
import Verif.Props.JsonFile
import Verif.Props.DissectLabels
import Verif.Props.DissectCount
import Verif.Props.DissectUpdate
import Verif.Props.DissectAttrs
import Verif.Props.DissectMessages
import Verif.Props.DissectOpen
import Verif.Props.DissectRecord
import Verif.Props.DissectMp
import Verif.Props.DissectMpCount
