import Verif.Props.KNN
import Verif.Props.MathUtils
import Verif.Props.Centroid
import Verif.Props.Manager
import Verif.Props.Steal
import Verif.Props.Nodes
import Verif.Props.Core
import Verif.Props.EventLoop
import Verif.Props.Balance
import Verif.Props.Arbiter
import Verif.Props.Locks
import Verif.Props.Jobs
import Verif.Props.Loops
import Verif.Props.Distribute
import Verif.Props.Float
import Verif.Props.Slice
import Verif.Props.Listen
import Verif.Props.NoPanic
import Verif.Props.ClientCalls
import Verif.Props.Uniform
import Verif.Props.Service
import Verif.Props.Expiry
import Verif.Props.Settle
import Verif.Props.Shipped
import Verif.Props.Logger
import Verif.Props.Restart
import Verif.Props.Answers
import Verif.Props.Json
import Verif.Props.Rest
import Verif.Props.Feed
import Verif.Props.Config
import Verif.Props.Process
import Verif.Props.TestNet
import Verif.Spec.Arrays
import Verif.Props.Arrays
import Verif.Model.Arrays
import Verif.Model.Http
import Verif.Spec.Http
import Verif.Props.Http
import Verif.Spec.Complete
import Verif.Props.Complete
import Verif.Props.PutQuery
import Verif.Spec.Creation
import Verif.Proofs.Neat
import Verif.Props.Creation
import Verif.Props.Vectors
import Verif.Spec.Harvest
import Verif.Props.Harvest
import Verif.Spec.Place
import Verif.Props.Place
import Verif.Proofs.KNN2
import Verif.Spec.Rounds
import Verif.Props.Rounds
import Verif.Props.Prefix
import Verif.Spec.Ties
import Verif.Props.Ties
import Verif.Spec.Merge
import Verif.Props.Merge
import Verif.Spec.Landing
import Verif.Props.Landing
import Verif.Spec.Rob
import Verif.Props.Rob
import Verif.Model.Receivers
import Verif.Spec.Receivers
import Verif.Proofs.Receivers
import Verif.Props.Receivers
import Verif.Spec.Lossy
import Verif.Props.Lossy
import Verif.Props.LossySteal
import Verif.Props.LossyService
import Verif.Props.Refused
import Verif.Props.Encoder
import Verif.Props.Positive
import Verif.Props.Trim
import Verif.Spec.Approx
import Verif.Props.Approx
import Verif.Props.Left
import Verif.Props.SliceLaws
import Verif.Props.ReadOnly
import Verif.Props.Nothing
import Verif.Model.Memory
import Verif.Props.Enough
import Verif.Props.Memory
import Verif.Props.Same
import Verif.Props.Quality
import Verif.Props.Symmetry
import Verif.Props.Direction
import Verif.Props.Opaque
import Verif.Props.Sorted
import Verif.Props.More
import Verif.Props.Visits
import Verif.Props.Repeat
import Verif.Props.Rename
import Verif.Props.Tenants
import Verif.Props.Traffic
import Verif.Props.Order
import Verif.Props.Trip
import Verif.Props.Round
import Verif.Proofs.LifeService
import Verif.Props.Keep
import Verif.Props.Upkeep
import Verif.Props.Crowd
import Verif.Proofs.Spread
import Verif.Proofs.Loot
import Verif.Proofs.Upheld
import Verif.Props.Unharmed
