import Verif.Props.Calendar
import Verif.Props.ExclusionSet
import Verif.Props.Traversal
import Verif.Props.Algo
import Verif.Props.Exclusion
import Verif.Props.OrderingAlgo
import Verif.Props.HasCycle
import Verif.Props.OrderingGraph
import Verif.Props.StationRoute
import Verif.Props.Interlocking
import Verif.Props.Utls
import Verif.Props.Dpd
import Verif.Props.Units
import Verif.Props.Generator
import Verif.Props.Section
import Verif.Props.Network
import Verif.Props.Border
import Verif.Props.Train
import Verif.Props.Transform
import Verif.Props.Kss
import Verif.Props.Physics
import Verif.Props.Interval
import Verif.Props.Runtime
import Verif.Props.SimGraph
import Verif.Props.ExclElements
import Verif.Props.ReverseAhead
import Verif.Props.PathLength
import Verif.Props.RoutePath
import Verif.Props.Layout
import Verif.Props.Gps
import Verif.Props.Osm
import Verif.Props.Curve
import Verif.Props.RouteTable
import Verif.Props.OrderingJson
import Verif.Props.ServerStart
import Verif.Props.InfraServer
import Verif.Props.TypeNames
import Verif.Props.ParseFp
import Verif.Props.ParseDebug
import Verif.Props.IssElement
import Verif.Props.IssFiles
import Verif.Props.TrainSeries
import Verif.Props.Tiles
import Verif.Props.Cliques
import Verif.Props.InfraStats
import Verif.Props.Serializable
import Verif.Props.Dates
import Verif.Props.Disruption
import Verif.Props.Conflicts
import Verif.Props.ServiceDays
import Verif.Props.Trip
import Verif.Props.KssXml
import Verif.Props.RouteBuild
import Verif.Props.Dispatch
import Verif.Props.InterlockingWhole
import Verif.Props.ErrorStats
import Verif.Props.IntervalSignal
import Verif.Props.ExclusionSetDebug
import Verif.Props.CalendarDebug
import Verif.Props.KssDebug
import Verif.Props.InterlockingDebug
import Verif.Props.OrderingGraphDebug
import Verif.Props.RuntimeDebug
import Verif.Props.ExclusionDebug
import Verif.Props.TrainDebug
import Verif.Props.KssTextDebug
import Verif.Props.KssTrainDebug
import Verif.Props.RouteDebug
import Verif.Props.ForceBalance
import Verif.Props.Routing
import Verif.Props.RoutingClient
import Verif.Props.GeneratorMemory
import Verif.Props.WebClient
import Verif.Props.WebClientInput
import Verif.Props.Tabs
import Verif.Props.Settings
import Verif.Props.IsPath
import Verif.Props.StationPanel
import Verif.Props.InfraMap
import Verif.Props.Menu
import Verif.Props.HttpClient
import Verif.Props.RouteSwitch
import Verif.Props.KssDirectory
