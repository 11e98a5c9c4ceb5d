import Verif.Py
import Verif.Policy.Operators
import Verif.Policy.OperatorsLemmas
import Verif.Policy.HashOrder
import Verif.Policy.OperatorsProps
import Verif.Policy.Combine
import Verif.Policy.CombineLemmas
import Verif.Policy.HashOrderCombine
import Verif.Policy.CombineProps
import Verif.Constraints.Model
import Verif.Constraints.Lemmas
import Verif.Constraints.Props
import Verif.Statement
import Verif.Collect.Tree
import Verif.Collect.TreeProps
import Verif.Collect.Cache
import Verif.Collect.CacheProps
import Verif.Collect.Collector
import Verif.Collect.Keys
import Verif.Collect.CollectorLemmas
import Verif.Collect.CollectorProps
import Verif.Collect.HistoryProps
import Verif.Collect.Transparency
import Verif.Collect.Held
import Verif.Verifier.Model
import Verif.Verifier.Lemmas
import Verif.Verifier.Props
import Verif.Chains.Model
import Verif.Chains.Lemmas
import Verif.Chains.Props
import Verif.TrustMarks.Store
import Verif.TrustMarks.StoreProps
import Verif.TrustMarks.Verify
import Verif.TrustMarks.VerifyProps
import Verif.Server.Create
import Verif.Server.Fetch
import Verif.Server.FetchProps
import Verif.Server.List
import Verif.Server.ListProps
import Verif.Server.Resolve
import Verif.Server.ResolveProps
import Verif.Message.Crit
import Verif.Message.CritProps
import Verif.Message.ChainProps
import Verif.Registration.Request
import Verif.Registration.RequestProps
import Verif.Registration.Setup
import Verif.Registration.SetupProps
import Verif.Registration.Automatic
import Verif.Registration.AutomaticProps
import Verif.Registration.Explicit
import Verif.Registration.ExplicitProps
import Verif.Discover.Trawl
import Verif.Discover.TrawlProps
import Verif.Discover.Endpoint
import Verif.Discover.EndpointProps
import Verif.Discover.Who
import Verif.Discover.WhoProps
import Verif.Policy.Exact
import Verif.Policy.Compatible
import Verif.Constraints.Complete
import Verif.Chains.Liveness
import Verif.Chains.Unresolved
import Verif.Policy.Demands
import Verif.Chains.Enforced
import Verif.Client.Register
import Verif.Client.RegisterProps
import Verif.Client.Authorization
import Verif.Client.AuthorizationProps
import Verif.Client.Provider
import Verif.Client.ProviderProps
import Verif.Client.Session
import Verif.Client.SessionProps
import Verif.Client.Http
import Verif.Client.HttpProps
import Verif.Chains.Served
import Verif.Chains.ServedProps
import Verif.Collect.Reissue
import Verif.Chains.Reissued
import Verif.Config.Anchors
import Verif.Config.AnchorsProps
import Verif.Config.Files
import Verif.Config.FilesProps
import Verif.Config.Build
import Verif.Config.BuildProps
import Verif.Client.Requests
import Verif.Client.RequestsProps
import Verif.TrustMarks.Life
import Verif.TrustMarks.LifeProps
import Verif.Server.Publish
import Verif.Server.PublishProps
import Verif.Server.Context
import Verif.Server.ContextProps
import Verif.Chains.InPlace
import Verif.Chains.InPlaceProps
import Verif.Server.ContextGiven
import Verif.Registration.Addresses
import Verif.Server.Roles
import Verif.Server.RolesProps
import Verif.Config.Settings
import Verif.Config.SettingsProps
import Verif.Collect.Mixed
import Verif.Collect.MixedProps
import Verif.Chains.Upheld
import Verif.Discover.WhoSettings
import Verif.Registration.Response
import Verif.Registration.Secret
import Verif.Config.ComboProps
import Verif.Client.Finalize
import Verif.Client.FinalizeProps
import Verif.Client.TokenClient
import Verif.Client.MarkEndpoint
import Verif.Config.Kinds
import Verif.Config.Parts
import Verif.Config.Lookup
import Verif.Config.Applied
import Verif.Client.Ending
import Verif.Client.Pushed
import Verif.Client.Welcomed
import Verif.Client.Enrolled
import Verif.Client.Taken
import Verif.Conformance.Policy
import Verif.Conformance.Entities
import Verif.Discover.WellKnownProps
import Verif.Client.Resolving
import Verif.Client.EnrolledOauth
import Verif.Setup.Scripts
import Verif.Setup.ScriptsProps
import Verif.Setup.Tree
import Verif.Web.View
import Verif.Web.Service
import Verif.Web.Login
import Verif.Policy.Separate
import Verif.Collect.Separate
import Verif.TrustMarks.Issuers
import Verif.Web.Logout
import Verif.Collect.Threads
import Verif.Collect.ThreadsProps
import Verif.Collect.Withdrawn
import Verif.Chains.Withdrawn
import Verif.Setup.Tools
import Verif.Collect.ConfigThreads
import Verif.Registration.Threads
import Verif.Client.IssuerThreads
import Verif.Server.Standing
import Verif.Registration.Admitted
import Verif.Registration.Later
import Verif.Policy.Repeated
import Verif.Collect.Again
import Verif.Chains.Again
import Verif.TrustMarks.Anchors
import Verif.Chains.Flux
import Verif.TrustMarks.Members
import Verif.Verifier.Threads
import Verif.Chains.AtOnce
import Verif.Chains.AtOnceProps
import Verif.Chains.AtOnceSound
import Verif.Registration.Named
import Verif.Registration.SharedKeys
import Verif.Discover.Walk
import Verif.Discover.WalkKeys
import Verif.Discover.WalkSame
import Verif.Collect.Moving
import Verif.Collect.MovingProps
import Verif.Chains.AnotherAnchor
import Verif.Server.ResolvedElsewhere
import Verif.Chains.Reordered
import Verif.Chains.Joined
import Verif.TrustMarks.Shared
import Verif.Constraints.Stricter
import Verif.Chains.Gained
import Verif.Policy.Narrowed
import Verif.Policy.More
import Verif.Policy.Tighter
import Verif.Collect.Passing
import Verif.Chains.Waiting
import Verif.Chains.Declared
import Verif.Collect.Asked
import Verif.Collect.Many
import Verif.Chains.Renewal
import Verif.Chains.Renamed
import Verif.Policy.Merged
import Verif.Policy.Said
import Verif.Chains.Said
import Verif.Setup.Asking
import Verif.Policy.Values
import Verif.Policy.Names
import Verif.Policy.Narrow
import Verif.Chains.Permitted
import Verif.Chains.Restated
import Verif.Chains.Constrained
import Verif.Chains.MoreKeys
import Verif.Chains.OwnMatter
import Verif.Chains.OwnRules
import Verif.Chains.OtherTypes
import Verif.Chains.Elsewhere
