import Verif.Props.Base64
import Verif.Props.SquareRoot
import Verif.Props.CRC
import Verif.Props.Timeout
import Verif.Props.IntText
import Verif.Props.StaticList
import Verif.Props.LinkedList
import Verif.Props.UnorderedMap
import Verif.Props.BinaryTree
import Verif.Props.RefContainer
import Verif.Props.Reference
import Verif.Props.BitSet
import Verif.Props.SafeMath
import Verif.Props.BitRange
import Verif.Props.FastMutex
import Verif.Props.EventSem
import Verif.Props.FastResource
import Verif.Props.Messages
import Verif.Props.MessageQueue
import Verif.Props.Broker
import Verif.Props.MultiBuffer
import Verif.Props.Layout
import Verif.Props.Scheduler
import Verif.Props.StateMachine
import Verif.Props.AsyncBroker
import Verif.Props.TriggerBroker
import Verif.Props.Token
import Verif.Props.ConfigDb
import Verif.Props.CircularBuffer
import Verif.Props.StreamString
import Verif.Props.BufferedStream
import Verif.Props.Stack
import Verif.Props.IntRadix
import Verif.Props.RuntimeEvaluator
import Verif.Props.MathParser
import Verif.Props.ConfigParser
import Verif.Props.Lexer
import Verif.Props.ConfigPrint
import Verif.Props.EmbeddedThread
import Verif.Props.MultiClient
import Verif.Props.Format
import Verif.Props.AppBuild
import Verif.Props.Md5
import Verif.Props.HttpChunk
import Verif.Props.HttpUrl
import Verif.Props.RefSearch
import Verif.Props.ObjectBuild
import Verif.Props.JsonParser
import Verif.Props.DoubleInteger
import Verif.Props.BitConvert
import Verif.Props.FloatInt
import Verif.Props.FloatConvert
import Verif.Props.TextFloat
import Verif.Props.RefPath
import Verif.Props.RefPurge
import Verif.Props.MatrixOps
import Verif.Props.Interp
import Verif.Props.ThreadsDb
import Verif.Props.GamData
import Verif.Props.CStrings
import Verif.Props.ThreadPool
import Verif.Props.Validate
import Verif.Props.ArrayConvert
import Verif.Props.Logger
import Verif.Props.HttpFields
import Verif.Props.FastSched
import Verif.Props.ClassReg
import Verif.Props.StructDecl
import Verif.Props.WebTree
import Verif.Props.HttpDir
import Verif.Props.SendMsg
import Verif.Props.ConfigCopy
import Verif.Props.BareSched
import Verif.Props.ThreadConf
import Verif.Props.Heaps
import Verif.Props.StructData
import Verif.Props.TextConvert
import Verif.Props.RegistryMsg
import Verif.Props.DataSrc
import Verif.Props.GamSignals
import Verif.Props.Endian
import Verif.Props.SdHelper
import Verif.Props.JsonPrint
import Verif.Props.XmlParser
import Verif.Props.StreamData
import Verif.Props.LogLine
import Verif.Props.PlainLogger
import Verif.Props.MethodCall
import Verif.Props.HashFn
import Verif.Props.Loader
import Verif.Props.ConfigExpr
import Verif.Props.FloatPrint
import Verif.Props.OsMutex
import Verif.Props.PollEvent
import Verif.Props.MemStream
import Verif.Props.LoaderHash
import Verif.Props.StructReg
import Verif.Props.AppStates
import Verif.Props.TimingSignals
import Verif.Props.FlattenSignal
import Verif.Props.SortBrokers
import Verif.Props.AnyObject
import Verif.Props.Shift
import Verif.Props.FnMemory
import Verif.Props.MemoryArea
import Verif.Props.AnyIndex
import Verif.Props.Console
import Verif.Props.PostBody
import Verif.Props.StreamCopy
import Verif.Props.ObjConvert
import Verif.Props.HttpClients
import Verif.Props.TypeDesc
import Verif.Props.Select
import Verif.Props.TcpSocket
import Verif.Props.DirScan
import Verif.Props.StateTold
import Verif.Props.UdpSocket
import Verif.Props.LocalHost
import Verif.Props.Uart
import Verif.Props.HttpAsk
import Verif.Props.ThreadSettings
import Verif.Props.GlobalObjects
import Verif.Props.ErrorSet
import Verif.Props.VectorMem
import Verif.Props.GamLookup
