import Verif.Props.Assembly
import Verif.Props.Bearing
import Verif.Props.Campbell
import Verif.Props.CampbellPlot
import Verif.Props.Clustering
import Verif.Props.CoAxial
import Verif.Props.CoAxialCg
import Verif.Props.CoAxialDofs
import Verif.Props.CoAxialNodes
import Verif.Props.CoAxialPos
import Verif.Props.CoAxialShafts
import Verif.Props.Convergence
import Verif.Props.Crack
import Verif.Props.CriticalSpeed
import Verif.Props.Cylindrical
import Verif.Props.Deflected
import Verif.Props.Disk
import Verif.Props.Equality
import Verif.Props.Extrapolation
import Verif.Props.Fault
import Verif.Props.FigureData
import Verif.Props.FilmFit
import Verif.Props.FilmForce
import Verif.Props.FilmMatrices
import Verif.Props.FilmPlots
import Verif.Props.FluidCoef
import Verif.Props.FluidFilm
import Verif.Props.FluidGeometry
import Verif.Props.FluidInit
import Verif.Props.FluidPressure
import Verif.Props.FluidShort
import Verif.Props.FreqPlot
import Verif.Props.FromSection
import Verif.Props.FromTable
import Verif.Props.Integrator
import Verif.Props.Intersection
import Verif.Props.Level1
import Verif.Props.MapPlots
import Verif.Props.Material
import Verif.Props.MatrixPlot
import Verif.Props.Misalignment
import Verif.Props.Modal
import Verif.Props.ModePlots
import Verif.Props.ModeSelection
import Verif.Props.Newmark
import Verif.Props.Orbit
import Verif.Props.Persist
import Verif.Props.PersistFilm
import Verif.Props.PointMass
import Verif.Props.Probe
import Verif.Props.PseudoModal
import Verif.Props.Readout
import Verif.Props.Reduction
import Verif.Props.Refine
import Verif.Props.RespPlots
import Verif.Props.Response
import Verif.Props.ResultsFile
import Verif.Props.RollingBearing
import Verif.Props.RossOnly
import Verif.Props.RotorDofs
import Verif.Props.RotorHeights
import Verif.Props.RotorInit
import Verif.Props.RotorPlot
import Verif.Props.Rubbing
import Verif.Props.Section
import Verif.Props.Shaft6
import Verif.Props.ShaftGeometry
import Verif.Props.ShaftKernel
import Verif.Props.ShaftMatrices
import Verif.Props.Shape
import Verif.Props.Spectrum
import Verif.Props.StPlots
import Verif.Props.StResultsFile
import Verif.Props.StRotor
import Verif.Props.Stability
import Verif.Props.State
import Verif.Props.Static
import Verif.Props.StaticPlot
import Verif.Props.StaticRuns
import Verif.Props.StaticTaper
import Verif.Props.Stochastic
import Verif.Props.StochasticFilm
import Verif.Props.Summary
import Verif.Props.Synchronous
import Verif.Props.Tables
import Verif.Props.ThdCoefficients
import Verif.Props.ThdFilm
import Verif.Props.ThdForces
import Verif.Props.ThdHeat
import Verif.Props.ThdLund
import Verif.Props.ThdPressure
import Verif.Props.ThdResultant
import Verif.Props.ThdStarved
import Verif.Props.ThdWhirl
import Verif.Props.TimeResponse
import Verif.Props.Transfer
import Verif.Props.Ucs
import Verif.Props.Unbalance
import Verif.Props.Undamped
import Verif.Props.Units
