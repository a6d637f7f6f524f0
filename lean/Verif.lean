import Verif.Core.Base64
import Verif.Core.Float
import Verif.Core.Num
import Verif.Core.Res
import Verif.Core.Round
import Verif.Core.Str
import Verif.Core.Utf8
import Verif.Model.Auth
import Verif.Model.Body
import Verif.Model.Build
import Verif.Model.Channel
import Verif.Model.Clock
import Verif.Model.Compare
import Verif.Model.Content
import Verif.Model.Cookie
import Verif.Model.Date
import Verif.Model.Debug
import Verif.Model.DebugTyped
import Verif.Model.DebugWhole
import Verif.Model.Error
import Verif.Model.EtagNew
import Verif.Model.Extensions
import Verif.Model.File
import Verif.Model.Form
import Verif.Model.Forwarded
import Verif.Model.HeaderIter
import Verif.Model.Headers
import Verif.Model.Hyperium
import Verif.Model.Ipv6
import Verif.Model.Json
import Verif.Model.JsonRead
import Verif.Model.JsonResponse
import Verif.Model.JsonValue
import Verif.Model.Lists
import Verif.Model.Location
import Verif.Model.Message
import Verif.Model.Method
import Verif.Model.Mime
import Verif.Model.ParseUtils
import Verif.Model.Security
import Verif.Model.ServerTiming
import Verif.Model.Simple
import Verif.Model.StatusCode
import Verif.Model.Trace
import Verif.Model.Version
import Verif.Model.Whole
import Verif.Model.Wrap
import Verif.Spec.Accept
import Verif.Spec.Adapter
import Verif.Spec.Amplify
import Verif.Spec.Auth
import Verif.Spec.Behind
import Verif.Spec.Body
import Verif.Spec.Browser
import Verif.Spec.Build
import Verif.Spec.Chain
import Verif.Spec.Channel
import Verif.Spec.Clearing
import Verif.Spec.Clock
import Verif.Spec.Coded
import Verif.Spec.Codings
import Verif.Spec.Compare
import Verif.Spec.Content
import Verif.Spec.Cookie
import Verif.Spec.CspStd
import Verif.Spec.Date
import Verif.Spec.Debug
import Verif.Spec.DebugLabels
import Verif.Spec.Directives
import Verif.Spec.Discover
import Verif.Spec.Effective
import Verif.Spec.Error
import Verif.Spec.Exact
import Verif.Spec.Exchange
import Verif.Spec.Expiry
import Verif.Spec.Extensions
import Verif.Spec.Fields
import Verif.Spec.File
import Verif.Spec.Float
import Verif.Spec.Form
import Verif.Spec.Forwarded
import Verif.Spec.ForwardedAny
import Verif.Spec.Fresh
import Verif.Spec.Gateway
import Verif.Spec.Handshake
import Verif.Spec.Headers
import Verif.Spec.Hops
import Verif.Spec.HttpBack
import Verif.Spec.HttpChain
import Verif.Spec.Hyperium
import Verif.Spec.Injection
import Verif.Spec.Ipv6
import Verif.Spec.Json
import Verif.Spec.JsonGrammar
import Verif.Spec.JsonPaths
import Verif.Spec.JsonRead
import Verif.Spec.JsonValue
import Verif.Spec.Layers
import Verif.Spec.Listed
import Verif.Spec.Lists
import Verif.Spec.Location
import Verif.Spec.Login
import Verif.Spec.Message
import Verif.Spec.Mime
import Verif.Spec.MimeEq
import Verif.Spec.Names
import Verif.Spec.Negotiate
import Verif.Spec.Num
import Verif.Spec.PassOn
import Verif.Spec.Pipeline
import Verif.Spec.Prefs
import Verif.Spec.Progress
import Verif.Spec.Relay
import Verif.Spec.Repeat
import Verif.Spec.Reuse
import Verif.Spec.Revalidate
import Verif.Spec.Round
import Verif.Spec.Secrets
import Verif.Spec.Security
import Verif.Spec.ServerTiming
import Verif.Spec.Since
import Verif.Spec.Split
import Verif.Spec.StdDate
import Verif.Spec.Tables
import Verif.Spec.Timings
import Verif.Spec.Trace
import Verif.Spec.Traceparent
import Verif.Spec.Tracing
import Verif.Spec.Typed
import Verif.Spec.Updates
import Verif.Spec.Validators
import Verif.Spec.Vocab
import Verif.Spec.Wait
import Verif.Spec.Whatwg
import Verif.Spec.Whole
import Verif.Spec.Wrap
import Verif.Spec.Written
import Verif.Spec.WrittenChain
import Verif.Spec.WrittenChallenge
import Verif.Spec.WrittenFields
import Verif.Spec.WrittenPrefs
import Verif.Spec.WrittenTimings
import Verif.Lemmas.AsciiText
import Verif.Lemmas.Base64
import Verif.Lemmas.Body
import Verif.Lemmas.Cache
import Verif.Lemmas.Channel
import Verif.Lemmas.Date
import Verif.Lemmas.DateMain
import Verif.Lemmas.DateParse
import Verif.Lemmas.FMap
import Verif.Lemmas.Float
import Verif.Lemmas.FloatText
import Verif.Lemmas.Forwarded
import Verif.Lemmas.ForwardedAny
import Verif.Lemmas.Headers
import Verif.Lemmas.Injection
import Verif.Lemmas.Ipv6
import Verif.Lemmas.Ipv6Print
import Verif.Lemmas.Lists
import Verif.Lemmas.Millis
import Verif.Lemmas.Mime
import Verif.Lemmas.MimeChars
import Verif.Lemmas.Num
import Verif.Lemmas.Round
import Verif.Lemmas.Str
import Verif.Lemmas.Typed
import Verif.Lemmas.Utf8
import Verif.Props.AcceptTrip
import Verif.Props.Adapter
import Verif.Props.Allow
import Verif.Props.Amplify
import Verif.Props.AsciiText
import Verif.Props.Auth
import Verif.Props.Behind
import Verif.Props.Body
import Verif.Props.Browser
import Verif.Props.Build
import Verif.Props.BuildEdits
import Verif.Props.Cache
import Verif.Props.Chain
import Verif.Props.Channel
import Verif.Props.Clean
import Verif.Props.Clearing
import Verif.Props.Clock
import Verif.Props.Coded
import Verif.Props.Codings
import Verif.Props.Compare
import Verif.Props.Content
import Verif.Props.Cookie
import Verif.Props.CspStd
import Verif.Props.Date
import Verif.Props.Debug
import Verif.Props.DebugLabels
import Verif.Props.DebugTyped
import Verif.Props.Directives
import Verif.Props.Discover
import Verif.Props.Effective
import Verif.Props.Error
import Verif.Props.EtagNew
import Verif.Props.Exact
import Verif.Props.Exchange
import Verif.Props.Expiry
import Verif.Props.Extensions
import Verif.Props.Fields
import Verif.Props.File
import Verif.Props.Form
import Verif.Props.Forwarded
import Verif.Props.ForwardedAny
import Verif.Props.Fresh
import Verif.Props.Gateway
import Verif.Props.Handshake
import Verif.Props.HeaderIter
import Verif.Props.Headers
import Verif.Props.Hops
import Verif.Props.HttpBack
import Verif.Props.HttpChain
import Verif.Props.Hyperium
import Verif.Props.Injection
import Verif.Props.Ipv6
import Verif.Props.Json
import Verif.Props.JsonGrammar
import Verif.Props.JsonPaths
import Verif.Props.JsonRead
import Verif.Props.JsonResponse
import Verif.Props.JsonValue
import Verif.Props.Layers
import Verif.Props.Listed
import Verif.Props.Lists
import Verif.Props.Location
import Verif.Props.Login
import Verif.Props.Message
import Verif.Props.Mime
import Verif.Props.MimeEq
import Verif.Props.Names
import Verif.Props.Negotiate
import Verif.Props.PassOn
import Verif.Props.PassRanges
import Verif.Props.Pipeline
import Verif.Props.Prefs
import Verif.Props.Progress
import Verif.Props.Relay
import Verif.Props.RelayLists
import Verif.Props.Repeat
import Verif.Props.Reuse
import Verif.Props.Revalidate
import Verif.Props.Secrets
import Verif.Props.Security
import Verif.Props.ServerTiming
import Verif.Props.ServerTimingTrip
import Verif.Props.Simple
import Verif.Props.Since
import Verif.Props.Split
import Verif.Props.StdDate
import Verif.Props.Tables
import Verif.Props.Timings
import Verif.Props.Trace
import Verif.Props.Traceparent
import Verif.Props.Tracing
import Verif.Props.TripIff
import Verif.Props.Updates
import Verif.Props.Validators
import Verif.Props.Vocab
import Verif.Props.Wait
import Verif.Props.Weights
import Verif.Props.Whatwg
import Verif.Props.Whole
import Verif.Props.Wrap
import Verif.Props.Written
import Verif.Props.WrittenChain
import Verif.Props.WrittenChallenge
import Verif.Props.WrittenFields
import Verif.Props.WrittenPrefs
import Verif.Props.WrittenTimings
import Verif.Conform.Basic
import Verif.Conform.Body
import Verif.Conform.Content
import Verif.Conform.Docs
import Verif.Conform.Forwarded
import Verif.Conform.Message
import Verif.Conform.Mime
