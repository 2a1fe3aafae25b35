import Verif.Access.Lemmas
import Verif.Access.Model
import Verif.Access.Props
import Verif.Access.Spec
import Verif.Basic
import Verif.BodyLen.Props
import Verif.BodyLen.Spec
import Verif.Buffer.Lemmas
import Verif.Buffer.Model
import Verif.Buffer.Props
import Verif.Buffer.Spec
import Verif.Buffer.Wrong
import Verif.CStr
import Verif.Cache.Lemmas
import Verif.Cache.Model
import Verif.Cache.Props
import Verif.Cache.Spec
import Verif.Cli.Model
import Verif.Cli.Props
import Verif.Codec.Example
import Verif.Codec.Lemmas
import Verif.Codec.Model
import Verif.Codec.Props
import Verif.Codec.Spec
import Verif.Conf.Lemmas
import Verif.Conf.Model
import Verif.Conf.Props
import Verif.Conf.Spec
import Verif.Conn.Model
import Verif.Conn.Props
import Verif.Conn.Spec
import Verif.Date.Lemmas
import Verif.Date.Model
import Verif.Date.Props
import Verif.Date.Spec
import Verif.Dispatch.Lemmas
import Verif.Dispatch.Model
import Verif.Dispatch.Props
import Verif.Dispatch.Run
import Verif.Dispatch.Spec
import Verif.Dispatch.Step
import Verif.Encode.Lemmas
import Verif.Encode.Model
import Verif.Encode.Props
import Verif.Encode.Spec
import Verif.Event.Lemmas
import Verif.Event.Model
import Verif.Event.Props
import Verif.Event.Spec
import Verif.FileType.Model
import Verif.FileType.Props
import Verif.FileType.Spec
import Verif.H2Access.Lemmas
import Verif.H2Access.Model
import Verif.H2Access.Props
import Verif.H2Access.Spec
import Verif.H2Ack.Lemmas
import Verif.H2Ack.Model
import Verif.H2Ack.Props
import Verif.H2Ack.Spec
import Verif.H2Any.Props
import Verif.H2Body.Model
import Verif.H2Body.Props
import Verif.H2Body.Spec
import Verif.H2Buf.Example
import Verif.H2Buf.Model
import Verif.H2Buf.Props
import Verif.H2Close.Model
import Verif.H2Close.Props
import Verif.H2Close.Spec
import Verif.H2Credit.Model
import Verif.H2Credit.Props
import Verif.H2Credit.Spec
import Verif.H2Feed.Model
import Verif.H2Feed.Props
import Verif.H2Feed.Spec
import Verif.H2Frame.Lemmas
import Verif.H2Frame.Model
import Verif.H2Frame.Props
import Verif.H2Frame.Spec
import Verif.H2Loop.Blocked
import Verif.H2Loop.Fit
import Verif.H2Loop.Idle
import Verif.H2Loop.Lemmas
import Verif.H2Loop.Live
import Verif.H2Loop.Model
import Verif.H2Loop.Order
import Verif.H2Loop.Props
import Verif.H2Loop.Sound
import Verif.H2Loop.Spec
import Verif.H2Loop.Stall
import Verif.H2Loop.Streams
import Verif.H2Prio.Lemmas
import Verif.H2Prio.Model
import Verif.H2Prio.Props
import Verif.H2Prio.Spec
import Verif.H2Refuse.Props
import Verif.H2Refuse.Spec
import Verif.H2Request.Lemmas
import Verif.H2Request.Model
import Verif.H2Request.Props
import Verif.H2Request.Spec
import Verif.H2Serve.Model
import Verif.H2Serve.Props
import Verif.H2Serve.Spec
import Verif.H2Site.Lemmas
import Verif.H2Site.Model
import Verif.H2Site.Props
import Verif.H2Site.Spec
import Verif.H2Stream.Inv
import Verif.H2Stream.Lemmas
import Verif.H2Stream.Model
import Verif.H2Stream.Props
import Verif.H2Stream.Spec
import Verif.H2Trip.Lemmas
import Verif.H2Trip.Model
import Verif.H2Trip.Props
import Verif.H2Trip.Spec
import Verif.H2Wire.Lemmas
import Verif.H2Wire.Model
import Verif.H2Wire.Props
import Verif.H2Wire.Spec
import Verif.Header.Model
import Verif.Header.Props
import Verif.Header.Spec
import Verif.Hpack.Encode
import Verif.Hpack.HuffLemmas
import Verif.Hpack.Lemmas
import Verif.Hpack.Model
import Verif.Hpack.Props
import Verif.Hpack.Spec
import Verif.Hpack.Table
import Verif.Hpack.Wrong
import Verif.Keep.Model
import Verif.Keep.Props
import Verif.Keep.Spec
import Verif.Lang.Lemmas
import Verif.Lang.Model
import Verif.Lang.Props
import Verif.Lang.Spec
import Verif.Life.Lemmas
import Verif.Life.Model
import Verif.Life.Props
import Verif.Link.Lemmas
import Verif.Link.Model
import Verif.Link.Props
import Verif.Link.Spec
import Verif.Log.Lock
import Verif.Log.LockProps
import Verif.Log.Model
import Verif.Log.Props
import Verif.Log.Spec
import Verif.Master.Lemmas
import Verif.Master.Model
import Verif.Master.Props
import Verif.Master.Spec
import Verif.Mime.Lemmas
import Verif.Mime.Model
import Verif.Mime.Props
import Verif.Mime.Safety
import Verif.Mime.Spec
import Verif.Mount.Lemmas
import Verif.Mount.Model
import Verif.Mount.Props
import Verif.Mount.Spec
import Verif.Multipart.Lemmas
import Verif.Multipart.Model
import Verif.Multipart.Props
import Verif.Multipart.Spec
import Verif.Nego.H1
import Verif.Nego.Lemmas
import Verif.Nego.Model
import Verif.Nego.Props
import Verif.Nego.Spec
import Verif.Nego.Turn
import Verif.Nego.Turn2
import Verif.Pages.Model
import Verif.Pages.Props
import Verif.Points.Gone
import Verif.Points.Lemmas
import Verif.Points.Model
import Verif.Points.Props
import Verif.Points.Spec
import Verif.Pool.Lemmas
import Verif.Pool.Model
import Verif.Pool.Props
import Verif.Pool.Spec
import Verif.PyArgs.Lemmas
import Verif.PyArgs.Model
import Verif.PyArgs.Props
import Verif.PyArgs.Spec
import Verif.PyBridge.Model
import Verif.PyBridge.Props
import Verif.PyBridge.Spec
import Verif.PyCors.Lemmas
import Verif.PyCors.Model
import Verif.PyCors.Props
import Verif.PyCors.Spec
import Verif.PyForm.Lemmas
import Verif.PyForm.Model
import Verif.PyForm.Props
import Verif.PyForm.Spec
import Verif.PyReq.Model
import Verif.PyReq.Props
import Verif.PyRoute.Lemmas
import Verif.PyRoute.Model
import Verif.PyRoute.Props
import Verif.PyRoute.Spec
import Verif.PyText.Model
import Verif.PyText.Props
import Verif.PyText.Spec
import Verif.RBTree.Lemmas
import Verif.RBTree.Model
import Verif.RBTree.Props
import Verif.RBTree.Spec
import Verif.Refuse.Lemmas
import Verif.Refuse.Model
import Verif.Refuse.Props
import Verif.Refuse.Spec
import Verif.ReqEvent.Lemmas
import Verif.ReqEvent.Model
import Verif.ReqEvent.Props
import Verif.ReqEvent.Safety
import Verif.ReqEvent.Spec
import Verif.ReqHeader.Lemmas
import Verif.ReqHeader.Model
import Verif.ReqHeader.Props
import Verif.ReqHeader.Spec
import Verif.ReqHeader.Total
import Verif.Request.Lemmas
import Verif.Request.Model
import Verif.Request.Props
import Verif.Request.Spec
import Verif.Response.Model
import Verif.Response.Props
import Verif.Response.Spec
import Verif.Route.Lemmas
import Verif.Route.Model
import Verif.Route.Props
import Verif.Route.Spec
import Verif.Scan.Lemmas
import Verif.Scan.Model
import Verif.Scan.Props
import Verif.Scan.Spec
import Verif.Send.Model
import Verif.Send.Props
import Verif.Send.Spec
import Verif.Serve.Lemmas
import Verif.Serve.Model
import Verif.Serve.Props
import Verif.Serve.Spec
import Verif.Serve.Steps
import Verif.Session.Model
import Verif.Session.Props
import Verif.Session.Spec
import Verif.Signals.Lemmas
import Verif.Signals.Model
import Verif.Signals.Props
import Verif.Site.Lemmas
import Verif.Site.Model
import Verif.Site.Props
import Verif.Site.Spec
import Verif.Start.Lemmas
import Verif.Start.Model
import Verif.Start.Props
import Verif.Start.Spec
import Verif.Trip.Lemmas
import Verif.Trip.Model
import Verif.Trip.Props
import Verif.Trip.Spec
import Verif.WStart.Model
import Verif.WStart.Props
import Verif.WStart.Spec
import Verif.Watch.Calm
import Verif.Watch.Grow
import Verif.Watch.Lemmas
import Verif.Watch.Model
import Verif.Watch.Props
import Verif.Watch.Spec
