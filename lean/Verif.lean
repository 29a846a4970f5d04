import Verif.Base
import Verif.Binary.Model
import Verif.Binary.Spec
import Verif.Binary.Lemmas
import Verif.Binary.Props
import Verif.Binary.Cpu
import Verif.BaseLemmas
import Verif.Syllab.Model
import Verif.Syllab.Lemmas
import Verif.Syllab.Props
import Verif.Syllab.PropsDyn
import Verif.Decimal
import Verif.Math.Model
import Verif.Math.Lemmas
import Verif.Math.Props
import Verif.Uri.Escape
import Verif.Uri.Urn
import Verif.Uri.EscapeSpec
import Verif.Uri.EscapeProps
import Verif.Uri.Model
import Verif.Uri.Spec
import Verif.Uri.Lemmas
import Verif.Uri.ParseProps
import Verif.Uri.ParseViolations
import Verif.Uri.MarshalProps
import Verif.Uri.QueryProps
import Verif.Http.Header
import Verif.Http.HeaderSpec
import Verif.Http.HeaderProps
import Verif.Http.Services
import Verif.Http.ServicesProps
import Verif.Http.AcceptProps
import Verif.Http.ExchangeProps
import Verif.Strings
import Verif.Http.Cookie
import Verif.Http.CookieSpec
import Verif.Http.CookieProps
import Verif.Http.ContentType
import Verif.Timer.HeapProps
import Verif.Timer.WhenProps
import Verif.Timer.StatusProps
import Verif.Timer.StatusAlone
import Verif.Timer.TimingProps
import Verif.Timer.Answers
import Verif.Timer.LimitTicker
import Verif.Timer.WheelProps
import Verif.Timer.WheelCallbackProps
import Verif.Pool.Props
import Verif.Pool.Lifecycle
import Verif.Pool.Callbacks
import Verif.Pool.Rounds
import Verif.Buffer.Props
import Verif.Validators.Props
import Verif.Time.Props
import Verif.Time.Sets
import Verif.Net.TcpProps
import Verif.Net.IpProps
import Verif.Net.AddrProps
import Verif.Identifier.Props
import Verif.Identifier.RfcProps
import Verif.Chapar.Props
import Verif.Chapar.LastHop
import Verif.Net.FramesProps
import Verif.Event.Props
import Verif.Event.Panics
import Verif.Event.Options
import Verif.Registry.Props
import Verif.Metric.Props
import Verif.User.Props
import Verif.Command.Props
import Verif.File.Props
import Verif.Json.Props2
import Verif.Www.Props
import Verif.Tcp.Props
import Verif.Tcp.Refused
import Verif.Tcp.TimingProps
import Verif.Convert.Props
import Verif.Os.Props2
import Verif.Net.SocketProps
import Verif.Net.SocketBitsProps
import Verif.Net.StdConn
import Verif.Net.Tight
import Verif.Buffer.Queue
import Verif.App.Props
import Verif.Time.ElapsedProps
import Verif.Os.Replace
import Verif.Os.Reset
import Verif.Syllab.GenProps2
import Verif.Compress.Props
import Verif.Error
import Verif.Language.CompressChar
import Verif.Www.AssetsProps
import Verif.Go.ParserProps
import Verif.Tcp.OverIpProps
import Verif.Log.Props
import Verif.Chapar.NetworkProps
import Verif.Net.FrameFieldsProps
import Verif.Http.LifeProps
import Verif.Tcp.LifeProps
import Verif.Json.StreamProps
import Verif.Timer.MovingProps
import Verif.Timer.SignalProps
import Verif.Timer.Callback
import Verif.Timer.CallbackLemmas
import Verif.Timer.CallbackProps
import Verif.Timer.Driver
import Verif.Timer.DriverLemmas
import Verif.Timer.DriverProps
import Verif.Minify.Model
import Verif.Minify.Props
import Verif.Command.Flags
import Verif.Command.FlagsProps
import Verif.Gui.Model
import Verif.Gui.Props
import Verif.Timer.WheelStop
import Verif.Timer.WheelStopProps
import Verif.Crypto.Model
import Verif.Crypto.Props
import Verif.Identifier.Text
import Verif.Identifier.TextProps
import Verif.Gui.Pages
import Verif.Os.Sort
import Verif.Operation.Action
import Verif.Time.Whole
import Verif.Time.WholeProps
import Verif.Uri.User
import Verif.ErrorKind
import Verif.Net.GpProcess
import Verif.Tight.Drift
import Verif.Tight.Replace
import Verif.Tight.Socket
import Verif.Tight.Small
import Verif.Tight.Gen
import Verif.Http.Typed
import Verif.Http.TypedProps
import Verif.Http.ExpiryProps
import Verif.Registry.Lookup
import Verif.Math.Objects
import Verif.Math.ObjectsProps
import Verif.Json.More
import Verif.Json.MoreProps
import Verif.Compress.Types
import Verif.Www.Languages
import Verif.Tight.Pages
import Verif.Timer.Cores
import Verif.Timer.CoresProps
import Verif.Time.Clock
import Verif.Time.ClockProps
import Verif.Os.Moves
import Verif.Tcp.Options
import Verif.Codec.Model
import Verif.Codec.Props
import Verif.Tight.Codecs
import Verif.Tight.Numbers
import Verif.Tight.Texts
import Verif.Tight.Times
import Verif.Tight.Wheel
import Verif.Tight.Audit
import Verif.Timer.WheelStopMany
import Verif.Timer.WheelStopManyProps
import Verif.Net.Extension
import Verif.Timer.Ticks
import Verif.Registry.MediaType
import Verif.File.Codec
import Verif.Log.Events
import Verif.Tight.Buffers
import Verif.Tight.Start
import Verif.Tight.Json
import Verif.Tight.Exact
import Verif.Tight.Cut
import Verif.Tight.Listing
import Verif.Tight.Order
import Verif.Tight.Paths
import Verif.Tight.Media
import Verif.Tight.Edges
import Verif.Tight.Edges2
import Verif.Tight.Edges3
import Verif.Tight.Edges4
import Verif.Shared.BufferProps
import Verif.Shared.FileProps
import Verif.Shared.TextProps
import Verif.Shared.WindowProps
import Verif.Registry.ParallelProps
import Verif.Registry.ParallelMeets
import Verif.Registry.Declared
import Verif.Registry.NilChain
import Verif.Identifier.GoBase64Props
import Verif.Http.ServiceText
import Verif.Json.Numbers
import Verif.Json.GoBase64Props
import Verif.Chapar.Ports
import Verif.Codec.Lost
import Verif.Net.StdIp
import Verif.Tight.Returns
import Verif.Tight.Rest
import Verif.Http.Find
import Verif.Http.ServeFiles
import Verif.Http.HostRead
import Verif.Http.Confined
import Verif.Http.Follow
import Verif.Http.Session
import Verif.Uri.Arrive
