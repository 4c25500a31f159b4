import Verif.Model.Sim
import Verif.Model.Load
import Verif.Spec.Examples
import Verif.Spec.Routes
import Verif.Spec.Network
import Verif.Spec.Results
import Verif.Spec.Decide
import Verif.Proof.Groups
import Verif.Proof.Simulation
import Verif.Proof.LspRule
import Verif.Proof.Rounding
import Verif.Proof.LspInv
import Verif.Proof.Ledger
import Verif.Proof.Outcome
import Verif.Proof.Shortcut
import Verif.Proof.Order
import Verif.Proof.Bandwidth
import Verif.Proof.Circuits
import Verif.Proof.Enumerate
import Verif.Proof.ShortcutLsps
import Verif.Proof.LoadSum
import Verif.Spec.Load
import Verif.Proof.Ecmp
import Verif.Proof.EcmpLoad
import Verif.Proof.Contribution
import Verif.Props.Routing
import Verif.Props.Lsp
import Verif.Props.Validation
import Verif.Props.Queries
import Verif.Props.Objects
import Verif.Props.Load
import Verif.Props.Riding
import Verif.Proof.SimFrame
import Verif.Spec.Failure
import Verif.Proof.Failure
import Verif.Proof.FailHist
import Verif.Proof.FailInvs
import Verif.Proof.Membership
import Verif.Proof.SrlgMatch
import Verif.Proof.Restore
import Verif.Proof.RoundTrip
import Verif.Props.Failure
import Verif.Spec.Registry
import Verif.Proof.Registry
import Verif.Proof.Additions
import Verif.Props.Registry
import Verif.Model.Shared
import Verif.Props.Shared
import Verif.Spec.File
import Verif.Spec.FileText
import Verif.Proof.File
import Verif.Proof.FileLoad
import Verif.Proof.FileModel
import Verif.Proof.FileText
import Verif.Props.File
import Verif.Props.LineEnds
import Verif.Spec.Same
import Verif.Proof.Compare
import Verif.Proof.Rel
import Verif.Props.Invariance
import Verif.Proof.Twist
import Verif.Proof.TwistDmd
import Verif.Props.Agree
import Verif.Spec.Carry
import Verif.Proof.TwistRoute
import Verif.Proof.TwistLoad
import Verif.Proof.TwistValid
import Verif.Spec.Inputs
import Verif.Proof.Inputs
import Verif.Props.Carry
import Verif.Props.Rsvp
import Verif.Spec.Shortcut
import Verif.Proof.Insert
import Verif.Proof.Ranked
import Verif.Proof.ShortcutSim
import Verif.Proof.Mixed
import Verif.Proof.MixedSim
import Verif.Proof.MixedLoad
import Verif.Proof.ShortcutFan
import Verif.Proof.ShortcutLoad
import Verif.Props.Shortcut
import Verif.Spec.Total
import Verif.Proof.LspTotal
import Verif.Proof.DmdTotal
import Verif.Proof.HopSum
import Verif.Proof.SimTotal
import Verif.Props.Total
import Verif.Spec.Impact
import Verif.Proof.Impact
import Verif.Proof.Kirchhoff
import Verif.Props.Impact
import Verif.Props.Balance
import Verif.Proof.Rerun
import Verif.Proof.Recfg
import Verif.Props.Rerun
import Verif.Proof.WhatIf
import Verif.Props.WhatIf
import Verif.Model.Weather
import Verif.Model.Queries
import Verif.Spec.Weather
import Verif.Proof.Weather
import Verif.Proof.Blind
import Verif.Proof.RestoreNode
import Verif.Props.Weather
import Verif.Spec.Change
import Verif.Proof.Change
import Verif.Proof.Symmetry
import Verif.Props.Change
import Verif.Props.Symmetry
import Verif.Props.Repair
import Verif.Props.Highlight
import Verif.Model.Page
import Verif.Props.Page
import Verif.Model.Assign
import Verif.Props.Assign
import Verif.Model.Float
import Verif.Spec.Float
import Verif.Proof.Float
import Verif.Proof.FloatTotal
import Verif.Props.Float
import Verif.Spec.Cut
import Verif.Props.Bystander
import Verif.Props.Cut
import Verif.Model.FloatLsp
import Verif.Proof.FloatLsp
import Verif.Proof.FloatDmd
import Verif.Proof.FloatValid
import Verif.Proof.FloatSim
import Verif.Proof.FloatNum
import Verif.Proof.FloatWhole
import Verif.Proof.FloatId
import Verif.Props.FloatLsp
import Verif.Props.Lookup
import Verif.Spec.Adding
import Verif.Proof.Adding
import Verif.Props.Adding
import Verif.Props.Members
import Verif.Props.Repaired
import Verif.Spec.Iso
import Verif.Props.Iso
import Verif.Model.Settings
import Verif.Spec.Tune
import Verif.Proof.Tune
import Verif.Props.Tune
import Verif.Props.Decimal
import Verif.Props.Matrix
import Verif.Spec.Accept
import Verif.Props.Accept
import Verif.Spec.Haul
import Verif.Props.Haul
import Verif.Props.Triangle
import Verif.Spec.Seed
import Verif.Proof.Seed
import Verif.Props.Seed
import Verif.Spec.Loop
import Verif.Proof.Loop
import Verif.Props.Loop
import Verif.Props.Bridge
import Verif.Spec.Local
import Verif.Proof.Local
import Verif.Props.Local
import Verif.Props.BridgeRsvp
