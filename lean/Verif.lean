import Verif.Task.Props
import Verif.Task.ThenDemo
import Verif.Task.Moves
import Verif.Task.Chain
import Verif.Task.WaitDemo
import Verif.Task.ProgressDemo
import Verif.Task.Answers
import Verif.Task.ConvertDemo
import Verif.Task.CoReturnProps
import Verif.Task.CallbackProps
import Verif.Test.Props
import Verif.Dispatch.Props
import Verif.Lifetime.Props
import Verif.Generator.Told
import Verif.Generator.PipeDemo
import Verif.AsyncGen.PipeDemo
import Verif.Yield.Props
import Verif.Signal.Props
import Verif.Signal.Args
import Verif.Signal.Order
import Verif.Listener.Ub
import Verif.Wait.Readers
import Verif.Wait.Servers
import Verif.Wait.Reply
import Verif.Wait.Leaves
import Verif.Wait.Write
import Verif.Await.Takes
import Verif.Await.Timers
import Verif.Await.Shared
import Verif.Await.SharedReply
import Verif.Wait.More
import Verif.Wait.Long
import Verif.Threads.Props
import Verif.Threads.WaitFor
import Verif.WebSocket.GenUb
import Verif.WebSocket.ServerLog
import Verif.Qml.Task
import Verif.Qml.Image
import Verif.Task.Depth
import Verif.Task.Place
import Verif.Generator.Depth
import Verif.AsyncGen.Depth
import Verif.AsyncGen.Place
import Verif.Qml.Witness
import Verif.Signal.Witness
import Verif.Listener.Witness
import Verif.World.Demo
import Verif.Task.Witness
import Verif.Task.Witness2
import Verif.Wait.Witness
import Verif.Threads.Witness
import Verif.Dispatch.Witness
import Verif.Lifetime.Witness
import Verif.Test.Witness
import Verif.Yield.Witness
import Verif.AsyncGen.Witness
import Verif.Task.Witness3
import Verif.Task.Witness4
import Verif.AsyncGen.Witness2
import Verif.Generator.Witness
import Verif.WebSocket.Witness
import Verif.Await.Witness
import Verif.Listener.Long
import Verif.WebSocket.Long
import Verif.WebSocket.ServerLong
