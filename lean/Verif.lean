import Verif.Model.Basic
import Verif.Model.FootPrint
import Verif.Model.UnicycleFoot
import Verif.Props.FootPrint
import Verif.Props.UnicycleFoot
import Verif.Props.Controllers
import Verif.Props.Ellipse
import Verif.Props.PersonFollowing
import Verif.Props.Optimization
import Verif.Props.Navigation
import Verif.Props.Planner
import Verif.Props.Settings
import Verif.Props.Generator
import Verif.Props.Replan
import Verif.Props.Accept
import Verif.Props.MinJerk
import Verif.Props.CoMHeight
import Verif.Props.CubicFeet
import Verif.Props.ZMP
import Verif.Props.ZMPWorld
import Verif.Props.Ieee
import Verif.Props.DCM
import Verif.Props.DCMReal
import Verif.Props.DCMWeights
import Verif.Props.Space
import Verif.Props.Navigate
import Verif.Props.Walker
import Verif.Props.Locks
import Verif.Props.History
import Verif.Props.Pitch
import Verif.Props.Merge
import Verif.Props.Moved
import Verif.Props.Again
import Verif.Props.Ties
import Verif.Props.Rounded
import Verif.Props.Executed
import Verif.Props.Stride
import Verif.Props.Turns
import Verif.Props.Curve
import Verif.Props.GoesOn
import Verif.Props.Pace
import Verif.Props.Separate
import Verif.Props.SpeedLimit
import Verif.Props.GoTo
import Verif.Props.Pursuit
import Verif.Props.WalkPath
import Verif.Props.Forward
import Verif.Props.Arc
import Verif.Props.Stop
import Verif.Props.Line
import Verif.Props.RoundedPlan
import Verif.Props.Special
import Verif.Props.Mirror
import Verif.Props.Reference
import Verif.Props.Solution
import Verif.Props.Start
import Verif.Props.Follow
import Verif.Props.Speed
import Verif.Props.DCMHull
import Verif.Props.Steady
import Verif.Props.MirrorPlan
import Verif.Props.MirrorWalk
import Verif.Props.PlanCost
import Verif.Props.DCMCrossing
import Verif.Props.Shared
import Verif.Props.Circle
import Verif.Props.Rates
import Verif.Props.Residue
import Verif.Props.ResidueBalance
import Verif.Props.Names
