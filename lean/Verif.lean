import Verif.Model.Binding
import Verif.Model.Body
import Verif.Model.BodyBind
import Verif.Model.Classic
import Verif.Model.Clean
import Verif.Model.Concurrent
import Verif.Model.Content
import Verif.Model.Context
import Verif.Model.Cookie
import Verif.Model.Cost
import Verif.Model.Crash
import Verif.Model.Download
import Verif.Model.Duration
import Verif.Model.Engine
import Verif.Model.Escape
import Verif.Model.Extended
import Verif.Model.Files
import Verif.Model.FormBind
import Verif.Model.FormFile
import Verif.Model.FormMemory
import Verif.Model.Header
import Verif.Model.HeaderBind
import Verif.Model.HttpDate
import Verif.Model.IPv4
import Verif.Model.Json
import Verif.Model.JsonBind
import Verif.Model.Log
import Verif.Model.Mapping
import Verif.Model.Maps
import Verif.Model.Middleware
import Verif.Model.Mount
import Verif.Model.Multipart
import Verif.Model.Name
import Verif.Model.Open
import Verif.Model.Pattern
import Verif.Model.Print
import Verif.Model.Process
import Verif.Model.RangeParts
import Verif.Model.Redirect
import Verif.Model.Regexp
import Verif.Model.Render
import Verif.Model.Rfc3339
import Verif.Model.Router
import Verif.Model.Serve
import Verif.Model.ServeFile
import Verif.Model.Slices
import Verif.Model.Sniff
import Verif.Model.Status
import Verif.Model.Str
import Verif.Model.Strconv
import Verif.Model.Stream
import Verif.Model.Tree
import Verif.Model.TreeHeap
import Verif.Model.Upload
import Verif.Model.UriBind
import Verif.Model.Url
import Verif.Model.UrlParse
import Verif.Model.Util
import Verif.Model.Values
import Verif.Model.Wire
import Verif.Model.Xml
import Verif.Spec.Address
import Verif.Spec.Apps
import Verif.Spec.Bind
import Verif.Spec.Binding
import Verif.Spec.Body
import Verif.Spec.BodyBind
import Verif.Spec.Cache
import Verif.Spec.Calls
import Verif.Spec.Chain
import Verif.Spec.Choice
import Verif.Spec.Classic
import Verif.Spec.Clean
import Verif.Spec.Compose
import Verif.Spec.Conditions
import Verif.Spec.Cost
import Verif.Spec.Disposition
import Verif.Spec.Duration
import Verif.Spec.Ends
import Verif.Spec.Escape
import Verif.Spec.Fetch
import Verif.Spec.Files
import Verif.Spec.Guard
import Verif.Spec.Guarded
import Verif.Spec.Head
import Verif.Spec.HeaderBind
import Verif.Spec.HeaderTrip
import Verif.Spec.History
import Verif.Spec.HttpDate
import Verif.Spec.IPv4
import Verif.Spec.Jar
import Verif.Spec.Json
import Verif.Spec.JsonBind
import Verif.Spec.Label
import Verif.Spec.Link
import Verif.Spec.Listing
import Verif.Spec.Log
import Verif.Spec.Mapping
import Verif.Spec.Memory
import Verif.Spec.Middleware
import Verif.Spec.Mount
import Verif.Spec.Multipart
import Verif.Spec.Name
import Verif.Spec.Number
import Verif.Spec.Observe
import Verif.Spec.Opaque
import Verif.Spec.Open
import Verif.Spec.Params
import Verif.Spec.Print
import Verif.Spec.Proxy
import Verif.Spec.QueryMap
import Verif.Spec.Ranges
import Verif.Spec.Redirect
import Verif.Spec.Reference
import Verif.Spec.Regexp
import Verif.Spec.Register
import Verif.Spec.Render
import Verif.Spec.Response
import Verif.Spec.Resume
import Verif.Spec.Rfc3339
import Verif.Spec.RoundTrip
import Verif.Spec.RoundTripOld
import Verif.Spec.RouteList
import Verif.Spec.Routes
import Verif.Spec.Routing
import Verif.Spec.Scripted
import Verif.Spec.SendFile
import Verif.Spec.Serve
import Verif.Spec.ServeFile
import Verif.Spec.Slices
import Verif.Spec.Sniff
import Verif.Spec.Static
import Verif.Spec.Stream
import Verif.Spec.Table
import Verif.Spec.Text
import Verif.Spec.Time
import Verif.Spec.Upload
import Verif.Spec.UploadTrip
import Verif.Spec.UriBind
import Verif.Spec.Url
import Verif.Spec.Util
import Verif.Spec.Validate
import Verif.Spec.Values
import Verif.Spec.Vary
import Verif.Spec.Wire
import Verif.Spec.Xml
import Verif.Lemmas.Accept
import Verif.Lemmas.Address
import Verif.Lemmas.Apps
import Verif.Lemmas.Binding
import Verif.Lemmas.BindingDepth
import Verif.Lemmas.Body
import Verif.Lemmas.Built
import Verif.Lemmas.Calendar
import Verif.Lemmas.Chain
import Verif.Lemmas.Clean
import Verif.Lemmas.Climb
import Verif.Lemmas.Compose
import Verif.Lemmas.Concurrent
import Verif.Lemmas.Conditions
import Verif.Lemmas.Content
import Verif.Lemmas.Cookie
import Verif.Lemmas.Cost
import Verif.Lemmas.Dispatch
import Verif.Lemmas.Dump
import Verif.Lemmas.Duration
import Verif.Lemmas.Ends
import Verif.Lemmas.Engine
import Verif.Lemmas.Erase
import Verif.Lemmas.Files
import Verif.Lemmas.FormMemory
import Verif.Lemmas.Guard
import Verif.Lemmas.Handler
import Verif.Lemmas.Head
import Verif.Lemmas.HeaderBind
import Verif.Lemmas.HeaderStrip
import Verif.Lemmas.HeaderTrip
import Verif.Lemmas.Heap
import Verif.Lemmas.HttpDate
import Verif.Lemmas.HttpFormat
import Verif.Lemmas.IPv4
import Verif.Lemmas.Json
import Verif.Lemmas.JsonBind
import Verif.Lemmas.Listing
import Verif.Lemmas.Literal
import Verif.Lemmas.Machine
import Verif.Lemmas.Mapping
import Verif.Lemmas.Middleware
import Verif.Lemmas.Multipart
import Verif.Lemmas.MultipartForm
import Verif.Lemmas.MultipartGather
import Verif.Lemmas.Observe
import Verif.Lemmas.Opaque
import Verif.Lemmas.Open
import Verif.Lemmas.Open2
import Verif.Lemmas.OpenClosed
import Verif.Lemmas.Order
import Verif.Lemmas.Parametric
import Verif.Lemmas.Params
import Verif.Lemmas.Pattern
import Verif.Lemmas.Pointers
import Verif.Lemmas.Pointers2
import Verif.Lemmas.Pointers3
import Verif.Lemmas.Pointers4
import Verif.Lemmas.Pointers5
import Verif.Lemmas.Print
import Verif.Lemmas.PrintTree
import Verif.Lemmas.Ranges
import Verif.Lemmas.Redirect
import Verif.Lemmas.Regexp
import Verif.Lemmas.RegexpRead
import Verif.Lemmas.Response
import Verif.Lemmas.Resume
import Verif.Lemmas.Rfc3339
import Verif.Lemmas.RoundTrip
import Verif.Lemmas.RoundTripOld
import Verif.Lemmas.Scripted
import Verif.Lemmas.Segs
import Verif.Lemmas.Sel
import Verif.Lemmas.Select
import Verif.Lemmas.SendBack
import Verif.Lemmas.Serve
import Verif.Lemmas.ServeFile
import Verif.Lemmas.Slices
import Verif.Lemmas.Slices2
import Verif.Lemmas.Slices3
import Verif.Lemmas.Sniff
import Verif.Lemmas.Source
import Verif.Lemmas.Static
import Verif.Lemmas.StaticMap
import Verif.Lemmas.Str
import Verif.Lemmas.Strconv
import Verif.Lemmas.Text
import Verif.Lemmas.Trail
import Verif.Lemmas.Upload
import Verif.Lemmas.Url
import Verif.Lemmas.Util
import Verif.Lemmas.Values
import Verif.Lemmas.Vary
import Verif.Lemmas.Via
import Verif.Lemmas.Walk
import Verif.Lemmas.Wins
import Verif.Lemmas.Wire
import Verif.Lemmas.Xml
import Verif.Props.Address
import Verif.Props.Apps
import Verif.Props.Binding
import Verif.Props.Body
import Verif.Props.BodyBind
import Verif.Props.Cache
import Verif.Props.Calls
import Verif.Props.Chain
import Verif.Props.Choice
import Verif.Props.Classic
import Verif.Props.Clean
import Verif.Props.Compose
import Verif.Props.Concurrent
import Verif.Props.Concurrent2
import Verif.Props.Conditions
import Verif.Props.Cookie
import Verif.Props.CookieDomain
import Verif.Props.Cost
import Verif.Props.Crash
import Verif.Props.Demo
import Verif.Props.Disposition
import Verif.Props.Download
import Verif.Props.Duration
import Verif.Props.Ends
import Verif.Props.Escape
import Verif.Props.Extended
import Verif.Props.Fetch
import Verif.Props.Files
import Verif.Props.FilesStatic
import Verif.Props.Flatten
import Verif.Props.Floats
import Verif.Props.FormBind
import Verif.Props.FormFile
import Verif.Props.FormMemory
import Verif.Props.Guard
import Verif.Props.Guarded
import Verif.Props.Head
import Verif.Props.HeaderBind
import Verif.Props.HeaderStrip
import Verif.Props.HeaderTrip
import Verif.Props.History
import Verif.Props.HttpDate
import Verif.Props.Insert
import Verif.Props.Isolate
import Verif.Props.Jar
import Verif.Props.Json
import Verif.Props.JsonBind
import Verif.Props.Label
import Verif.Props.Link
import Verif.Props.Listing
import Verif.Props.Log
import Verif.Props.Mapping
import Verif.Props.Maps
import Verif.Props.MapsServe
import Verif.Props.MapsStatic
import Verif.Props.Middleware
import Verif.Props.Mount
import Verif.Props.MountRaw
import Verif.Props.MountRecovery
import Verif.Props.Multipart
import Verif.Props.Name
import Verif.Props.Opaque
import Verif.Props.Open
import Verif.Props.Options
import Verif.Props.Params
import Verif.Props.Pointers
import Verif.Props.Print
import Verif.Props.PrintTree
import Verif.Props.Proxy
import Verif.Props.QueryMap
import Verif.Props.RangeParts
import Verif.Props.Ranges
import Verif.Props.Redirect
import Verif.Props.RedirectWeb
import Verif.Props.Reference
import Verif.Props.Regexp
import Verif.Props.Render
import Verif.Props.Response
import Verif.Props.Resume
import Verif.Props.Rfc3339
import Verif.Props.RoundTrip
import Verif.Props.RoundTripOld
import Verif.Props.RouteList
import Verif.Props.Router
import Verif.Props.Routing
import Verif.Props.SendBack
import Verif.Props.Serve
import Verif.Props.ServeFile
import Verif.Props.Slash
import Verif.Props.Slices
import Verif.Props.Sniff
import Verif.Props.Static
import Verif.Props.StaticDir
import Verif.Props.StaticIndex
import Verif.Props.StaticMap
import Verif.Props.Stream
import Verif.Props.Text
import Verif.Props.Time
import Verif.Props.Upload
import Verif.Props.UriBind
import Verif.Props.Url
import Verif.Props.UseLaws
import Verif.Props.Util
import Verif.Props.Validate
import Verif.Props.Values
import Verif.Props.Vary
import Verif.Props.Via
import Verif.Props.Walk
import Verif.Props.Wire
import Verif.Props.Xml
import Verif.Tests.Binding
import Verif.Tests.Router
