import Verif.Partition.Props
import Verif.Sizes.Props
import Verif.Fourier.Props
import Verif.Fourier.Orth
import Verif.Tridiag.Props
import Verif.Control.Props
import Verif.Control.RunProps
import Verif.Team.Props
import Verif.Jacobian.Props
import Verif.Boundary.Props
import Verif.Coeffs.Props
import Verif.HotRestart.Props
import Verif.Resize.Props
import Verif.Profiles.Props
import Verif.Profiles.Closed
import Verif.Profiles.LineSeg
import Verif.Profiles.Cubic
import Verif.Profiles.Akima
import Verif.Mgrid.Load
import Verif.PyInput.Props
import Verif.Multigrid.Props
import Verif.Contin.Solver
import Verif.TimeStep.Props
import Verif.AxisGuess.Props
import Verif.Coils.Props
import Verif.Makegrid.Props
import Verif.Kernels.Props
import Verif.Kernels.PropsB
import Verif.Kernels.PropsC
import Verif.Transform.Model
import Verif.Transform.Lemmas
import Verif.Transform.Spec
import Verif.Transform.Fft
import Verif.Transform.Agree
import Verif.Transform.Props
import Verif.Transform.SpecB
import Verif.Transform.Series
import Verif.Transform.PropsB
import Verif.Transform.Adjoint
import Verif.Transform.SpecC
import Verif.Transform.PropsC
import Verif.Transform.Axisym
import Verif.Transform.AxisymLemmas
import Verif.Transform.AxisymProps
import Verif.PyDriver.Model
import Verif.PyDriver.Spec
import Verif.PyDriver.Lemmas
import Verif.PyDriver.Pass
import Verif.PyDriver.Tail
import Verif.PyDriver.Sim
import Verif.PyDriver.Clean
import Verif.PyDriver.Props
import Verif.Indata.Model
import Verif.Indata.Spec
import Verif.Indata.Check
import Verif.Indata.Json
import Verif.Indata.Accept
import Verif.Indata.Props
import Verif.Indata.Text
import Verif.Indata.Reader
import Verif.Indata.Hdf5
import Verif.Indata.Hdf5Props
import Verif.Asym.Model
import Verif.Asym.Spec
import Verif.Asym.Lemmas
import Verif.Asym.Symrzl
import Verif.Asym.Reflect
import Verif.Asym.Adjoint
import Verif.Asym.Fold
import Verif.Asym.Props
import Verif.Asym.PropsB
import Verif.Asym.PropsC
import Verif.Constraint.Model
import Verif.Constraint.Spec
import Verif.Constraint.SpecB
import Verif.Constraint.Lemmas
import Verif.Constraint.Filter
import Verif.Constraint.Props
import Verif.Constraint.PropsB
import Verif.Constraint.Ring
import Verif.Constraint.PropsC
import Verif.Constraint.PropsD
import Verif.Nestor.Singular
import Verif.Nestor.Integrals
import Verif.Nestor.Tl
import Verif.Nestor.Backward
import Verif.Nestor.PropsA
import Verif.Nestor.Coeffs
import Verif.Nestor.Poly
import Verif.Nestor.Rational
import Verif.Nestor.Line
import Verif.Nestor.Kernel
import Verif.Nestor.Perform
import Verif.Nestor.PerformSum
import Verif.Nestor.Subtracted
import Verif.Nestor.PerformAll
import Verif.Nestor.Elements
import Verif.Nestor.Assembly
import Verif.Nestor.PropsB
import Verif.Nestor.Green
import Verif.Nestor.GreenSum
import Verif.Nestor.GreenSpec
import Verif.Nestor.PropsC
import Verif.Nestor.Surface
import Verif.Nestor.SurfSeries
import Verif.Nestor.SurfSum
import Verif.Nestor.SurfSpec
import Verif.Nestor.PropsD
import Verif.Nestor.Laplace
import Verif.Nestor.LaplaceFold
import Verif.Nestor.LaplaceGreen
import Verif.Nestor.LaplaceSys
import Verif.Nestor.LaplaceNet
import Verif.Nestor.PropsE
import Verif.Nestor.Vacuum
import Verif.Nestor.Segment
import Verif.Nestor.VacuumEq
import Verif.Nestor.PropsF
import Verif.Radial.Model
import Verif.Radial.Spec
import Verif.Radial.Eq
import Verif.Radial.Entries
import Verif.Radial.Assembled
import Verif.Radial.Definite
import Verif.Radial.Pivots
import Verif.Radial.Apply
import Verif.Radial.Props
import Verif.Output.Gather
import Verif.Output.GatherProps
import Verif.Output.CurrentProps
import Verif.Output.Wout
import Verif.Output.WoutProps
import Verif.Output.Fill
import Verif.Output.Field
import Verif.Output.FieldProps
import Verif.Output.Filter
import Verif.Output.FilterSpec
import Verif.Output.FilterLoops
import Verif.Output.FilterProps
import Verif.Output.Jxb
import Verif.Output.JxbProps
import Verif.Output.Mercier
import Verif.Output.MercierProps
import Verif.Output.Nyquist
import Verif.Output.NyquistDelta
import Verif.Output.NyquistLoops
import Verif.Output.NyquistProps
import Verif.Output.Currents
import Verif.Output.CurrentsProps
import Verif.Output.Threed1
import Verif.Output.Threed1Props
import Verif.Output.Quadrature
import Verif.Output.Geometry
import Verif.Output.GeometryProps
import Verif.Output.GeometryExtent
import Verif.Output.GeometryCases
import Verif.Output.EnergyProps
import Verif.Output.WoutFile
import Verif.Output.WoutFileProps
import Verif.Output.Shafranov
import Verif.Output.ShafranovProps
import Verif.Output.ShafranovUniform
import Verif.Output.Shape
import Verif.Output.ShapeProps
import Verif.PyOutput.Netcdf
import Verif.PyOutput.NetcdfProps
import Verif.PyOutput.NetcdfFails
import Verif.PyJson.Model
import Verif.PyJson.Props
import Verif.PyJson.Fails
import Verif.Coeffs.SpectralWidth
import Verif.Coeffs.SpectralWidthProps
import Verif.PyModel.Model
import Verif.PyModel.Props
import Verif.PyModel.Fails
import Verif.Coeffs.Residuals
import Verif.Coeffs.ResidualsProps
import Verif.Coeffs.ResidualsSteps
import Verif.Profiles.Radial
import Verif.Profiles.RadialSpec
import Verif.Profiles.RadialLemmas
import Verif.Profiles.RadialProps
import Verif.PyFiles.Model
import Verif.PyFiles.Props
import Verif.Profiles.SetProfile
import Verif.Profiles.SetProfileProps
import Verif.Profiles.SetProfileFail
import Verif.PySimsopt.Model
import Verif.PySimsopt.Props
import Verif.PySimsopt.Numbers
import Verif.Makegrid.File
import Verif.Makegrid.FileProps
import Verif.Makegrid.FileLoad
import Verif.Makegrid.FileFails
import Verif.CoilGeom.Model
import Verif.CoilGeom.Frame
import Verif.CoilGeom.Csv
import Verif.CoilGeom.Linking
import Verif.FreeBound.Model
import Verif.FreeBound.Hand
import Verif.FreeBound.Edge
import Verif.FreeBound.Props
import Verif.OnlyCoils.Model
import Verif.OnlyCoils.Props
import Verif.FieldTable.Model
import Verif.FieldTable.Props
import Verif.OutputIo.Model
import Verif.OutputIo.Lemmas
import Verif.OutputIo.Wout
import Verif.OutputIo.Old
import Verif.OutputIo.Props
import Verif.PyWout.Model
import Verif.PyWout.Lemmas
import Verif.PyWout.Props
import Verif.TridiagOmp.Model
import Verif.TridiagOmp.Proto
import Verif.TridiagOmp.Lemmas
import Verif.TridiagOmp.Props
import Verif.Race.Machine
import Verif.Race.Model
import Verif.Race.Lemmas
import Verif.Race.Props
import Verif.Csv.Model
import Verif.Csv.Lemmas
import Verif.Csv.Props
import Verif.Logger.Model
import Verif.Logger.Lemmas
import Verif.Logger.Props
import Verif.ParFor.Machine
import Verif.ParFor.Model
import Verif.ParFor.Lemmas
import Verif.ParFor.Props
import Verif.Bounds.Model
import Verif.Bounds.Geometry
import Verif.Bounds.Forces
import Verif.Bounds.Spec
import Verif.Bounds.Lemmas
import Verif.Bounds.Attr
import Verif.Bounds.Dims
import Verif.Bounds.GeometryLemmas
import Verif.Bounds.ForcesLemmas
import Verif.Bounds.Props
import Verif.Views.Model
import Verif.Views.Spec
import Verif.Views.Lemmas
import Verif.Views.Props
import Verif.VacBounds.Model
import Verif.VacBounds.Spec
import Verif.VacBounds.Lemmas
import Verif.VacBounds.Props
import Verif.VacBounds.SourceModel
import Verif.VacBounds.SourceSpec
import Verif.VacBounds.SourceLemmas
import Verif.VacBounds.SourceProps
