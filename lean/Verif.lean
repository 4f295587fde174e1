import Verif.Py.Dict
import Verif.Model.Net
import Verif.Spec.Net
import Verif.Proofs.Net
import Verif.Proofs.Links
import Verif.Proofs.Item
import Verif.Proofs.Neigh
import Verif.Proofs.Total
import Verif.Proofs.Edges
import Verif.Proofs.View
import Verif.Proofs.Eq
import Verif.Proofs.History
import Verif.Props.Net
import Verif.Model.Plex
import Verif.Proofs.Plex
import Verif.Proofs.PlexOps
import Verif.Proofs.PlexSet
import Verif.Proofs.PlexRead
import Verif.Proofs.PlexCoup
import Verif.Spec.Plex
import Verif.Proofs.PlexHist
import Verif.Proofs.PlexFacts
import Verif.Props.Plex
import Verif.Props.Plex2
import Verif.Props.Plex3
import Verif.Model.Transforms
import Verif.Spec.Transforms
import Verif.Proofs.Build
import Verif.Proofs.Transforms
import Verif.Proofs.Aggregate
import Verif.Proofs.Overlay
import Verif.Proofs.Subnet
import Verif.Proofs.Relabel
import Verif.Proofs.Supra
import Verif.Proofs.Looks
import Verif.Props.Transforms
import Verif.Props.Transforms2
import Verif.Props.Transforms3
import Verif.Props.Transforms4
import Verif.Props.TransformsPlex
import Verif.Model.Diagnostics
import Verif.Spec.Diagnostics
import Verif.Proofs.Diagnostics
import Verif.Proofs.Dijkstra
import Verif.Props.Diagnostics
import Verif.Model.Isom
import Verif.Spec.Isom
import Verif.Proofs.Isom
import Verif.Proofs.IsomIso
import Verif.Proofs.IsomNet
import Verif.Proofs.IsomCore
import Verif.Props.Isom
import Verif.Model.Sampling
import Verif.Spec.Sampling
import Verif.Proofs.Comb
import Verif.Proofs.Checks
import Verif.Proofs.Search
import Verif.Proofs.Usage
import Verif.Props.Sampling
import Verif.Proofs.EsuPath
import Verif.Proofs.EsuMain
import Verif.Props.Esu
import Verif.Model.Clustering
import Verif.Spec.Clustering
import Verif.Proofs.Clustering
import Verif.Proofs.ClusteringW
import Verif.Proofs.ClusteringP
import Verif.Proofs.Contraction
import Verif.Proofs.Barrett
import Verif.Proofs.ClusteringPlex
import Verif.Proofs.ClusteringPlex2
import Verif.Proofs.Super
import Verif.Props.Clustering
import Verif.Props.Clustering2
import Verif.Model.Graphlets
import Verif.Spec.Graphlets
import Verif.Proofs.Orbits
import Verif.Proofs.Partitions
import Verif.Props.Graphlets
import Verif.Model.NxWrap
import Verif.Props.NxWrap
import Verif.Proofs.BuildPlex
import Verif.Model.Models
import Verif.Spec.Models
import Verif.Proofs.Fills
import Verif.Proofs.Er
import Verif.Proofs.ErLoop
import Verif.Proofs.ErLayers
import Verif.Proofs.Full
import Verif.Proofs.Ends
import Verif.Proofs.Ba
import Verif.Proofs.Overlaps
import Verif.Props.Models
import Verif.Props.Models2
import Verif.Model.Conf
import Verif.Spec.Conf
import Verif.Proofs.Slots
import Verif.Proofs.Repair
import Verif.Proofs.Swaps
import Verif.Proofs.ConfLoop
import Verif.Proofs.Conf
import Verif.Proofs.ConfDegs
import Verif.Proofs.ConfLayers
import Verif.Proofs.ConfReach
import Verif.Props.Conf
import Verif.Props.ConfCopy
import Verif.Model.ConfOverlaps
import Verif.Proofs.OvLoop
import Verif.Proofs.OvStubs
import Verif.Proofs.OvComb
import Verif.Proofs.OvReach
import Verif.Props.ConfOverlaps
import Verif.Model.Cycles
import Verif.Spec.Cycles
import Verif.Proofs.CycleNet
import Verif.Proofs.Walks
import Verif.Proofs.Cycles
import Verif.Proofs.Cycles2
import Verif.Proofs.CyclesAnet
import Verif.Proofs.CyclesAnet2
import Verif.Proofs.CycleSums
import Verif.Proofs.CycleCoef
import Verif.Props.Cycles
import Verif.Model.PlexTransforms
import Verif.Spec.PlexTransforms
import Verif.Proofs.BuildM
import Verif.Proofs.SubnetP
import Verif.Proofs.SubnetP2
import Verif.Props.PlexSubnet
import Verif.Proofs.RelabelP
import Verif.Props.PlexRelabel
import Verif.Model.GraphletGen
import Verif.Spec.GraphletGen
import Verif.Proofs.GenIso
import Verif.Proofs.GenBuild
import Verif.Proofs.GenMain
import Verif.Props.GraphletGen
import Verif.Model.OrbitCounts
import Verif.Spec.OrbitCounts
import Verif.Proofs.OrbitSets
import Verif.Proofs.OrbitIso
import Verif.Proofs.OrbitTables
import Verif.Proofs.OrbitCount
import Verif.Props.OrbitCounts
import Verif.Model.Prune
import Verif.Spec.Prune
import Verif.Proofs.Prune
import Verif.Proofs.Prune2
import Verif.Props.Prune
import Verif.Model.NetIO
import Verif.Spec.NetIO
import Verif.Proofs.NetText
import Verif.Proofs.NetIO
import Verif.Proofs.Ucinet
import Verif.Props.NetIO
import Verif.Props.NetIO2
import Verif.Model.IndepEq
import Verif.Spec.IndepEq
import Verif.Proofs.Scc
import Verif.Props.IndepEq
import Verif.Props.IndepEq2
import Verif.Model.OrbitEq
import Verif.Spec.OrbitEq
import Verif.Proofs.OrbitEq
import Verif.Proofs.OrbitEq2
import Verif.Props.OrbitEq
import Verif.Props.OrbitEq2
import Verif.Model.SubnetIter
import Verif.Spec.SubnetIter
import Verif.Proofs.SubnetIter
import Verif.Props.SubnetIter
import Verif.Model.Assign
import Verif.Spec.Assign
import Verif.Proofs.Assign
import Verif.Props.Assign
import Verif.Model.NxAdj
import Verif.Spec.NxAdj
import Verif.Proofs.NxAdj
import Verif.Props.NxAdj
import Verif.Model.Randomize
import Verif.Spec.Randomize
import Verif.Proofs.Randomize
import Verif.Props.Randomize
import Verif.Model.Creators
import Verif.Spec.Creators
import Verif.Proofs.Creators
import Verif.Props.Creators
import Verif.Model.OrbitEqs
import Verif.Proofs.OrbitEqs
import Verif.Proofs.OrbitEqs2
import Verif.Proofs.OrbitEqsL
import Verif.Proofs.OrbitEqs3
import Verif.Proofs.OrbitEqsM
import Verif.Proofs.OrbitEqsG
import Verif.Proofs.OrbitEqsN
import Verif.Proofs.OrbitEqsK
import Verif.Proofs.OrbitEqs4
import Verif.Proofs.OrbitEqs5
import Verif.Props.OrbitEqs
import Verif.Model.Modularity
import Verif.Proofs.Modularity
import Verif.Proofs.ModularityNet
import Verif.Props.Modularity
import Verif.Model.Visuals
import Verif.Spec.Visuals
import Verif.Proofs.Visuals
import Verif.Proofs.VisualsNet
import Verif.Props.Visuals
import Verif.Model.Assigners
import Verif.Props.Assigners
import Verif.Model.Onnela
import Verif.Props.Onnela
import Verif.Model.Gcd
import Verif.Props.Gcd
import Verif.Model.PlexInit
import Verif.Props.PlexInit
import Verif.Model.IndepEqs
import Verif.Proofs.IndepEqs
import Verif.Proofs.IndepEqs2
import Verif.Props.IndepEqs
import Verif.Props.FindKey
import Verif.Model.CycleAdj
import Verif.Spec.CycleWeights
import Verif.Proofs.CycleAdj
import Verif.Proofs.CycleAdj2
import Verif.Proofs.CycleAdj3
import Verif.Proofs.CycleAdj4
import Verif.Proofs.CycleAdj5
import Verif.Proofs.CycleAdj6
import Verif.Proofs.CycleAdj7
import Verif.Props.CycleAdj
import Verif.Props.FullKeys
import Verif.Model.ClusterAvg
import Verif.Props.ClusterAvg
import Verif.Model.Gcm
import Verif.Props.Gcm
import Verif.Model.NodeSizes
import Verif.Model.VisualsPlex
import Verif.Props.NodeSizes
import Verif.Props.VisualsPlex
import Verif.Model.LayoutNl
import Verif.Proofs.LayoutNl
import Verif.Props.LayoutNl
import Verif.Model.AggregateInto
import Verif.Proofs.AggregateInto
import Verif.Props.AggregateInto
import Verif.Proofs.Flatten
import Verif.Props.Flatten
import Verif.Model.WebPlot
import Verif.Spec.Json
import Verif.Proofs.Json
import Verif.Props.WebPlot
import Verif.Model.NodeLists
import Verif.Props.NodeLists
import Verif.Model.Backends
import Verif.Props.Backends
import Verif.Model.Hash
import Verif.Props.Hash
import Verif.Props.Laws
import Verif.Props.AggTwice
import Verif.Props.LawsPlex
import Verif.Props.Commute
import Verif.Model.IntraDict
import Verif.Props.IntraDict
import Verif.Props.CommutePlex
import Verif.Props.IsoPlex
import Verif.Props.IsoPlex2
import Verif.Props.IsoEquiv
import Verif.Props.IsoDiag
import Verif.Props.DistNames
import Verif.Props.DistPlex
import Verif.Props.DistParts
import Verif.Props.DistPartsPlex
import Verif.Props.Metric
import Verif.Model.FlatView
import Verif.Props.FlatView
import Verif.Props.ThreshPlex
import Verif.Props.PrunePlex
