import Verif.Props.Absent
import Verif.Props.Archive
import Verif.Props.Arrays
import Verif.Props.AttrAlias
import Verif.Props.Checks
import Verif.Props.ChecksExact
import Verif.Props.ChemObjects
import Verif.Props.Collision
import Verif.Props.Constrain
import Verif.Props.ContinueRun
import Verif.Props.Coords
import Verif.Props.CoordsUnion
import Verif.Props.CreateJobs
import Verif.Props.DataFile
import Verif.Props.DeDonder
import Verif.Props.DerivCache
import Verif.Props.Descent
import Verif.Props.Descriptors
import Verif.Props.DrivingForce
import Verif.Props.Energy
import Verif.Props.Entropy
import Verif.Props.Equilibrium
import Verif.Props.EventText
import Verif.Props.Exact
import Verif.Props.Exact10
import Verif.Props.Exact11
import Verif.Props.Exact2
import Verif.Props.Exact3
import Verif.Props.Exact4
import Verif.Props.Exact5
import Verif.Props.Exact6
import Verif.Props.Exact7
import Verif.Props.Exact8
import Verif.Props.Exact9
import Verif.Props.Failures
import Verif.Props.Failures10
import Verif.Props.Failures2
import Verif.Props.Failures3
import Verif.Props.Failures4
import Verif.Props.Failures5
import Verif.Props.Failures6
import Verif.Props.Failures7
import Verif.Props.Failures8
import Verif.Props.Failures9
import Verif.Props.Fills
import Verif.Props.Flow
import Verif.Props.Format
import Verif.Props.GasEquilibrium
import Verif.Props.Gather
import Verif.Props.GatherMap
import Verif.Props.Gif
import Verif.Props.GifRead
import Verif.Props.Hybrid
import Verif.Props.Invariance
import Verif.Props.Jacobian
import Verif.Props.Jacobian2
import Verif.Props.Kmc
import Verif.Props.KmcExact
import Verif.Props.KmcRun
import Verif.Props.LatexLog
import Verif.Props.Lattice
import Verif.Props.LatticeCounts
import Verif.Props.LatticeGas
import Verif.Props.LatticeMean
import Verif.Props.LatticeMixing
import Verif.Props.Load
import Verif.Props.Local
import Verif.Props.Logger
import Verif.Props.MapPlot
import Verif.Props.MassTable
import Verif.Props.MeanField
import Verif.Props.MkmScript
import Verif.Props.Necessary
import Verif.Props.Network
import Verif.Props.NeuQuant
import Verif.Props.Newton
import Verif.Props.Overfull
import Verif.Props.OverfullBound
import Verif.Props.OverfullEach
import Verif.Props.OverfullNear
import Verif.Props.Plot
import Verif.Props.PlotCoverages
import Verif.Props.PlotFrequencies
import Verif.Props.PlotFrequenciesExact
import Verif.Props.PlotProc
import Verif.Props.PlotTof
import Verif.Props.PlotTofExact
import Verif.Props.PlotTraj
import Verif.Props.Plugin
import Verif.Props.ProcDefs
import Verif.Props.RateControl
import Verif.Props.Rates
import Verif.Props.RatesExact
import Verif.Props.Rounding
import Verif.Props.Rounding2
import Verif.Props.RoundingChain
import Verif.Props.RoundingEnergy
import Verif.Props.RoundingEnergy2
import Verif.Props.RoundingSearch
import Verif.Props.Run
import Verif.Props.RunScripts
import Verif.Props.Rxn
import Verif.Props.Script
import Verif.Props.SeriesPlot
import Verif.Props.Shomate
import Verif.Props.ShomateBorders
import Verif.Props.SmallResidual
import Verif.Props.Startup
import Verif.Props.SteadyExists
import Verif.Props.SteadyHooks
import Verif.Props.SteadyLoop
import Verif.Props.SteadyPositive
import Verif.Props.Symbolic
import Verif.Props.Symbols
import Verif.Props.Tables
import Verif.Props.Templates
import Verif.Props.Tex
import Verif.Props.Thermo
import Verif.Props.TotalEq
import Verif.Props.Util
import Verif.Props.WholeText
import Verif.Audit
