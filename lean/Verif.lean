import Verif.Lemmas.AveragedNormal
import Verif.Lemmas.Avoider
import Verif.Lemmas.AvoiderBranches
import Verif.Lemmas.AvoiderMean
import Verif.Lemmas.AvoiderOrder
import Verif.Lemmas.AvoiderStar
import Verif.Lemmas.AvoiderStarTotal
import Verif.Lemmas.AvoiderTurn
import Verif.Lemmas.BallAvoider
import Verif.Lemmas.BallTrajectory
import Verif.Lemmas.Balls
import Verif.Lemmas.BallsVelocity
import Verif.Lemmas.Barrier
import Verif.Lemmas.BranchSums
import Verif.Lemmas.CircleTrajectory
import Verif.Lemmas.Cluster
import Verif.Lemmas.ConstantTree
import Verif.Lemmas.Contact
import Verif.Lemmas.Convergence
import Verif.Lemmas.ConvergenceBranches
import Verif.Lemmas.ConvergenceExists
import Verif.Lemmas.ConvergenceReduction
import Verif.Lemmas.ConvergenceTurn
import Verif.Lemmas.FlowTrajectory
import Verif.Lemmas.FromDirections
import Verif.Lemmas.GraphElement
import Verif.Lemmas.GraphHandler
import Verif.Lemmas.KMeans
import Verif.Lemmas.Monad
import Verif.Lemmas.MultiBody
import Verif.Lemmas.NonlinearAvoider
import Verif.Lemmas.OrderWeights
import Verif.Lemmas.Planar
import Verif.Lemmas.PlanarConvergence
import Verif.Lemmas.PlanarReduce
import Verif.Lemmas.PlanarSequence
import Verif.Lemmas.PlanarTree
import Verif.Lemmas.Projected
import Verif.Lemmas.Renumber
import Verif.Lemmas.Rotation
import Verif.Lemmas.RotationalAvoider
import Verif.Lemmas.RotationalPi
import Verif.Lemmas.RotationalSequence
import Verif.Lemmas.SameTree
import Verif.Lemmas.SceneTurn
import Verif.Lemmas.Sequence
import Verif.Lemmas.SequenceTurn
import Verif.Lemmas.Slerp
import Verif.Lemmas.Sphere
import Verif.Lemmas.StarRegion
import Verif.Lemmas.TangentLine
import Verif.Lemmas.TangentTurn
import Verif.Lemmas.TreeChain
import Verif.Lemmas.TreeCongr
import Verif.Lemmas.TreeIso
import Verif.Lemmas.TreeLevels
import Verif.Lemmas.TreeOneHot
import Verif.Lemmas.TreeOps
import Verif.Lemmas.TreePartial
import Verif.Lemmas.TreeReduce
import Verif.Lemmas.TreeResult
import Verif.Lemmas.TreeSort
import Verif.Lemmas.TreeStructure
import Verif.Lemmas.TreeTurn
import Verif.Lemmas.TreeTurnBuild
import Verif.Lemmas.TreeTwoLevel
import Verif.Lemmas.Weights
import Verif.Model.Arch
import Verif.Model.Avoider
import Verif.Model.AvoiderCreate
import Verif.Model.BodyConversion
import Verif.Model.Comparison
import Verif.Model.Composite
import Verif.Model.ConstantValue
import Verif.Model.ContainerQueries
import Verif.Model.Containers
import Verif.Model.DeviationFit
import Verif.Model.DirectionPull
import Verif.Model.DirectionalFit
import Verif.Model.EllipseGeometry
import Verif.Model.Flows
import Verif.Model.GmmGradient
import Verif.Model.GmmGraph
import Verif.Model.GmmObstacle
import Verif.Model.GmmRegions
import Verif.Model.GraphElement
import Verif.Model.GraphHandler
import Verif.Model.Hull
import Verif.Model.Human
import Verif.Model.KMeans
import Verif.Model.KMeansCreate
import Verif.Model.KMeansDirection
import Verif.Model.KMeansExclusive
import Verif.Model.KMeansNormal
import Verif.Model.KMeansPredict
import Verif.Model.Learner
import Verif.Model.Legacy
import Verif.Model.Limb
import Verif.Model.LocalDynamics
import Verif.Model.LyapunovDirection
import Verif.Model.MixtureRegression
import Verif.Model.MultiBody
import Verif.Model.MultiHull
import Verif.Model.NonlinearAvoider
import Verif.Model.Num
import Verif.Model.Obstacle
import Verif.Model.Projected
import Verif.Model.ProjectedHelpers
import Verif.Model.RelativeReference
import Verif.Model.RotationContainer
import Verif.Model.RotationIntersection
import Verif.Model.RotationalAvoider
import Verif.Model.Segments
import Verif.Model.Sequence
import Verif.Model.SpiralCreate
import Verif.Model.SurfacePoints
import Verif.Model.Tracking
import Verif.Model.TrackingUpdate
import Verif.Model.Tree
import Verif.Model.Utils
import Verif.Model.VectorRotation
import Verif.Model.Weights
import Verif.Props.Arch
import Verif.Props.AveragedNormal
import Verif.Props.Avoider
import Verif.Props.AvoiderComponents
import Verif.Props.AvoiderContact
import Verif.Props.AvoiderContacts
import Verif.Props.AvoiderConvergence
import Verif.Props.AvoiderDirection
import Verif.Props.AvoiderExamples
import Verif.Props.AvoiderInside
import Verif.Props.AvoiderMoving
import Verif.Props.AvoiderOrder
import Verif.Props.AvoiderOrderBalls
import Verif.Props.AvoiderShift
import Verif.Props.AvoiderSpace
import Verif.Props.AvoiderTime
import Verif.Props.AvoiderTurn
import Verif.Props.AvoiderTwoContacts
import Verif.Props.AvoiderZoom
import Verif.Props.Balls
import Verif.Props.BodyConversion
import Verif.Props.Boundaries
import Verif.Props.Comparison
import Verif.Props.ComparisonMetrics
import Verif.Props.Composite
import Verif.Props.CompositeMotion
import Verif.Props.ConstantValue
import Verif.Props.ContainerQueries
import Verif.Props.Containers
import Verif.Props.Convergence
import Verif.Props.ConvergenceExamples
import Verif.Props.ConvergenceExists
import Verif.Props.ConvergenceTurn
import Verif.Props.DeviationDynamics
import Verif.Props.DeviationFit
import Verif.Props.DirectionPull
import Verif.Props.DirectionPullExamples
import Verif.Props.DirectionalFit
import Verif.Props.EllipseGeometry
import Verif.Props.FlowTrajectory
import Verif.Props.FlowTrajectoryExamples
import Verif.Props.Flows
import Verif.Props.Fold
import Verif.Props.GmmEllipses
import Verif.Props.GmmGeometry
import Verif.Props.GmmGradient
import Verif.Props.GmmGradientExamples
import Verif.Props.GmmGraph
import Verif.Props.GmmHierarchy
import Verif.Props.GmmRegions
import Verif.Props.GmmWeights
import Verif.Props.Graph
import Verif.Props.GraphElement
import Verif.Props.Hull
import Verif.Props.HullPath
import Verif.Props.Human
import Verif.Props.KMeansCreate
import Verif.Props.KMeansDirection
import Verif.Props.KMeansDirectionExample
import Verif.Props.KMeansExclusive
import Verif.Props.KMeansExclusiveExample
import Verif.Props.KMeansHierarchy
import Verif.Props.KMeansNormal
import Verif.Props.KMeansObstacle
import Verif.Props.KMeansPredict
import Verif.Props.KMeansPredictExample
import Verif.Props.KMeansRefit
import Verif.Props.KMeansRefitDistances
import Verif.Props.KMeansSparse
import Verif.Props.Learner
import Verif.Props.Learner2
import Verif.Props.Legacy
import Verif.Props.Limb
import Verif.Props.LocalDynamics
import Verif.Props.LyapunovDirection
import Verif.Props.MixtureRegression
import Verif.Props.MultiBody
import Verif.Props.MultiHull
import Verif.Props.NoAttractor
import Verif.Props.NonlinearAvoider
import Verif.Props.PathFollowing
import Verif.Props.PathStatistics
import Verif.Props.Planar
import Verif.Props.Projected
import Verif.Props.ProjectedHelpers
import Verif.Props.ProjectedPosition
import Verif.Props.RegionsOrder
import Verif.Props.Relative
import Verif.Props.RelativeReference
import Verif.Props.Rotation
import Verif.Props.RotationContainer
import Verif.Props.RotationIntersection
import Verif.Props.RotationalAvoider
import Verif.Props.RotationalExample
import Verif.Props.RotationalSequence
import Verif.Props.RotationalWeights
import Verif.Props.RungeKutta
import Verif.Props.Segments
import Verif.Props.Sequence
import Verif.Props.SpiralAttractor
import Verif.Props.SpiralCreate
import Verif.Props.StarRegion
import Verif.Props.StarRegionExamples
import Verif.Props.Steps
import Verif.Props.StepsRegions
import Verif.Props.SurfacePoints
import Verif.Props.Tangent
import Verif.Props.TangentExamples
import Verif.Props.Tracking
import Verif.Props.TrackingUpdate
import Verif.Props.Trajectory
import Verif.Props.TreeApi
import Verif.Props.TreeMean
import Verif.Props.TreeNear
import Verif.Props.TreeReduce
import Verif.Props.TreeStructure
import Verif.Props.TreeTurn
import Verif.Props.Utils
import Verif.Props.Weights
import Verif.Props.Weights2
import Verif.Props.Weights3
import Verif.Spec.Arch
import Verif.Spec.AveragedNormal
import Verif.Spec.Avoider
import Verif.Spec.AvoiderMean
import Verif.Spec.Balls
import Verif.Spec.Cell
import Verif.Spec.Comparison
import Verif.Spec.Contacts
import Verif.Spec.Convergence
import Verif.Spec.DirectionPull
import Verif.Spec.DirectionSpace
import Verif.Spec.DirectionalFit
import Verif.Spec.EllipseGeometry
import Verif.Spec.FlowTrajectory
import Verif.Spec.Geometry
import Verif.Spec.GmmGradient
import Verif.Spec.GmmRegions
import Verif.Spec.Graph
import Verif.Spec.GraphElement
import Verif.Spec.Human
import Verif.Spec.KMeansDirection
import Verif.Spec.KMeansExclusive
import Verif.Spec.KMeansPredict
import Verif.Spec.Learner
import Verif.Spec.MixtureRegression
import Verif.Spec.MultiHull
import Verif.Spec.NonlinearAvoider
import Verif.Spec.Order
import Verif.Spec.Path
import Verif.Spec.Planar
import Verif.Spec.Projected
import Verif.Spec.Region
import Verif.Spec.RelativeReference
import Verif.Spec.RotationContainer
import Verif.Spec.Rotational
import Verif.Spec.Shift
import Verif.Spec.StarRegion
import Verif.Spec.TimeScale
import Verif.Spec.Tracking
import Verif.Spec.Trajectory
import Verif.Spec.Tree
import Verif.Spec.Turn
import Verif.Spec.TurnConvergence
import Verif.Spec.TurnScene
import Verif.Spec.Weights
import Verif.Spec.Zoom
