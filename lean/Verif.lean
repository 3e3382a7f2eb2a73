import Verif.Lemmas.BasedOn
import Verif.Lemmas.CheckAll
import Verif.Lemmas.CheckEach
import Verif.Lemmas.CheckOnly
import Verif.Lemmas.Checks
import Verif.Lemmas.Collection
import Verif.Lemmas.CondMain
import Verif.Lemmas.CondRules
import Verif.Lemmas.CondSem
import Verif.Lemmas.Conditions
import Verif.Lemmas.Config
import Verif.Lemmas.ConfigFiles
import Verif.Lemmas.Core
import Verif.Lemmas.Declared
import Verif.Lemmas.Dict
import Verif.Lemmas.EachDeclared
import Verif.Lemmas.Finds
import Verif.Lemmas.Format
import Verif.Lemmas.GetAtt
import Verif.Lemmas.GetScenarios
import Verif.Lemmas.Graph
import Verif.Lemmas.Json
import Verif.Lemmas.JsonErrs
import Verif.Lemmas.JsonGram
import Verif.Lemmas.JsonMarks
import Verif.Lemmas.JsonPlaces
import Verif.Lemmas.JsonSound
import Verif.Lemmas.Leaves
import Verif.Lemmas.Location
import Verif.Lemmas.Main
import Verif.Lemmas.NoAttr
import Verif.Lemmas.Options
import Verif.Lemmas.PathConds
import Verif.Lemmas.Project
import Verif.Lemmas.PropSets
import Verif.Lemmas.Refs
import Verif.Lemmas.Regex
import Verif.Lemmas.Rules
import Verif.Lemmas.Runner
import Verif.Lemmas.SameText
import Verif.Lemmas.Scenarios
import Verif.Lemmas.Search
import Verif.Lemmas.Specs
import Verif.Lemmas.Split
import Verif.Lemmas.Sub
import Verif.Lemmas.SubRule
import Verif.Lemmas.Traverse
import Verif.Model.Aliases
import Verif.Model.BasedOn
import Verif.Model.BasedTables
import Verif.Model.CheckValue
import Verif.Model.Cidr
import Verif.Model.CliLists
import Verif.Model.Clusters
import Verif.Model.CondEquals
import Verif.Model.CondGrammar
import Verif.Model.CondRules
import Verif.Model.Conditions
import Verif.Model.Config
import Verif.Model.ConfigFiles
import Verif.Model.Convert
import Verif.Model.Core
import Verif.Model.Declared
import Verif.Model.Decode
import Verif.Model.Default
import Verif.Model.Docs
import Verif.Model.Ebs
import Verif.Model.Elb
import Verif.Model.FnShape
import Verif.Model.Format
import Verif.Model.GetAtt
import Verif.Model.Graph
import Verif.Model.GraphDot
import Verif.Model.GroupRules
import Verif.Model.IamPolicy
import Verif.Model.Interface
import Verif.Model.Join
import Verif.Model.Json
import Verif.Model.JsonMarks
import Verif.Model.JsonSize
import Verif.Model.Limits
import Verif.Model.Lint
import Verif.Model.ListSpecs
import Verif.Model.Main
import Verif.Model.Mappings
import Verif.Model.Modules
import Verif.Model.NoEcho
import Verif.Model.Node
import Verif.Model.NodeMarks
import Verif.Model.NodeOps
import Verif.Model.Outputs
import Verif.Model.Override
import Verif.Model.ParamUses
import Verif.Model.Password
import Verif.Model.Patch
import Verif.Model.Permissions
import Verif.Model.Pipeline
import Verif.Model.Plugins
import Verif.Model.Policies
import Verif.Model.PolicyUpdate
import Verif.Model.PolicyVersion
import Verif.Model.PrimType
import Verif.Model.PropCheck
import Verif.Model.PropSets
import Verif.Model.Py
import Verif.Model.RecordSet
import Verif.Model.RefAtt
import Verif.Model.RefRules
import Verif.Model.Refs
import Verif.Model.Regex
import Verif.Model.Registry
import Verif.Model.Relations
import Verif.Model.ResProps
import Verif.Model.RouteTable
import Verif.Model.Rules
import Verif.Model.Runner
import Verif.Model.Runtimes
import Verif.Model.SamRun
import Verif.Model.Scenario
import Verif.Model.Schedule
import Verif.Model.SectionNames
import Verif.Model.SecureRefs
import Verif.Model.SpecRules
import Verif.Model.SpecUses
import Verif.Model.Specs
import Verif.Model.Stages
import Verif.Model.StagesRule
import Verif.Model.StateMachine
import Verif.Model.Sub
import Verif.Model.SubNeeded
import Verif.Model.SubRule
import Verif.Model.TableKeys
import Verif.Model.Targets
import Verif.Model.TargetsRule
import Verif.Model.Template
import Verif.Model.Transform
import Verif.Model.Traverse
import Verif.Model.Update
import Verif.Model.UpdatePolicy
import Verif.Model.UpdatePool
import Verif.Model.ValueSpecs
import Verif.Model.Yaml
import Verif.Model.ZoneNames
import Verif.Model.Zones
import Verif.Props.Aliases
import Verif.Props.Availability
import Verif.Props.BasedClosed
import Verif.Props.BasedOn
import Verif.Props.BoundsClosed
import Verif.Props.CallsClosed
import Verif.Props.CheckValue
import Verif.Props.Cidr
import Verif.Props.CliLists
import Verif.Props.Closed
import Verif.Props.Clusters
import Verif.Props.CondEquals
import Verif.Props.CondGrammar
import Verif.Props.CondRules
import Verif.Props.Conditions
import Verif.Props.Config
import Verif.Props.ConfigFiles
import Verif.Props.Convert
import Verif.Props.Core
import Verif.Props.Declared
import Verif.Props.DeclsClosed
import Verif.Props.Decode
import Verif.Props.Default
import Verif.Props.Docs
import Verif.Props.Ebs
import Verif.Props.Elb
import Verif.Props.Exact
import Verif.Props.ExactLimits
import Verif.Props.ExactLinked
import Verif.Props.ExactShaped
import Verif.Props.FnShape
import Verif.Props.Format
import Verif.Props.GetAtt
import Verif.Props.Graph
import Verif.Props.GraphDot
import Verif.Props.GroupRules
import Verif.Props.IamPolicy
import Verif.Props.InfoClosed
import Verif.Props.Interface
import Verif.Props.Join
import Verif.Props.Json
import Verif.Props.JsonMarks
import Verif.Props.JsonSize
import Verif.Props.JsonSound
import Verif.Props.KindsClosed
import Verif.Props.Limits
import Verif.Props.Lint
import Verif.Props.ListRepeats
import Verif.Props.ListSpecs
import Verif.Props.Main
import Verif.Props.Mappings
import Verif.Props.Modules
import Verif.Props.NoEcho
import Verif.Props.NodeMarks
import Verif.Props.Outputs
import Verif.Props.Override
import Verif.Props.ParamUses
import Verif.Props.Password
import Verif.Props.Patch
import Verif.Props.Permissions
import Verif.Props.Pipeline
import Verif.Props.Plugins
import Verif.Props.Policies
import Verif.Props.PolicyUpdate
import Verif.Props.PolicyVersion
import Verif.Props.Pretty
import Verif.Props.PrimType
import Verif.Props.Projection
import Verif.Props.PropCheck
import Verif.Props.PropSets
import Verif.Props.RecordSet
import Verif.Props.RefAtt
import Verif.Props.RefRules
import Verif.Props.RefTable
import Verif.Props.Refs
import Verif.Props.Regex
import Verif.Props.Registry
import Verif.Props.Relations
import Verif.Props.Required
import Verif.Props.ResProps
import Verif.Props.RestClosed
import Verif.Props.RouteTable
import Verif.Props.Rules
import Verif.Props.RunBad
import Verif.Props.RunUnconfigured
import Verif.Props.RunUnion
import Verif.Props.Runner
import Verif.Props.Runtimes
import Verif.Props.SamRun
import Verif.Props.Schedule
import Verif.Props.SectionNames
import Verif.Props.SecureRefs
import Verif.Props.Shape
import Verif.Props.Silent
import Verif.Props.SpecRules
import Verif.Props.SpecViews
import Verif.Props.Specs
import Verif.Props.Stages
import Verif.Props.StateMachine
import Verif.Props.StatusBits
import Verif.Props.StatusKept
import Verif.Props.StatusRules
import Verif.Props.StatusUnion
import Verif.Props.Sub
import Verif.Props.SubNeeded
import Verif.Props.SubRule
import Verif.Props.TableKeys
import Verif.Props.Targets
import Verif.Props.TargetsClosed
import Verif.Props.Template
import Verif.Props.Transform
import Verif.Props.Traverse
import Verif.Props.TypesClosed
import Verif.Props.Update
import Verif.Props.UpdatePolicy
import Verif.Props.UpdatePool
import Verif.Props.UpdatePools
import Verif.Props.UsesClosed
import Verif.Props.ValueSpecs
import Verif.Props.Yaml
import Verif.Props.ZoneNames
import Verif.Props.Zones
import Verif.Spec.Aliases
import Verif.Spec.BasedOn
import Verif.Spec.CheckValue
import Verif.Spec.Checks
import Verif.Spec.Cidr
import Verif.Spec.CliLists
import Verif.Spec.Clusters
import Verif.Spec.Collection
import Verif.Spec.CondGrammar
import Verif.Spec.CondRules
import Verif.Spec.Conditions
import Verif.Spec.Config
import Verif.Spec.ConfigFiles
import Verif.Spec.Convert
import Verif.Spec.Core
import Verif.Spec.Declared
import Verif.Spec.Default
import Verif.Spec.Docs
import Verif.Spec.Ebs
import Verif.Spec.Elb
import Verif.Spec.FnShape
import Verif.Spec.Format
import Verif.Spec.GetAtt
import Verif.Spec.Graph
import Verif.Spec.IamPolicy
import Verif.Spec.Interface
import Verif.Spec.Join
import Verif.Spec.Json
import Verif.Spec.JsonMarks
import Verif.Spec.JsonSize
import Verif.Spec.Limits
import Verif.Spec.ListSpecs
import Verif.Spec.Main
import Verif.Spec.Mappings
import Verif.Spec.Modules
import Verif.Spec.NoEcho
import Verif.Spec.NodeOps
import Verif.Spec.Outputs
import Verif.Spec.ParamUses
import Verif.Spec.Password
import Verif.Spec.Permissions
import Verif.Spec.Pipeline
import Verif.Spec.Plugins
import Verif.Spec.Policies
import Verif.Spec.PolicyVersion
import Verif.Spec.PrimType
import Verif.Spec.PropCheck
import Verif.Spec.PropSets
import Verif.Spec.RecordSet
import Verif.Spec.RefAtt
import Verif.Spec.RefRules
import Verif.Spec.Refs
import Verif.Spec.Regex
import Verif.Spec.Registry
import Verif.Spec.Relations
import Verif.Spec.ResProps
import Verif.Spec.RouteTable
import Verif.Spec.Rules
import Verif.Spec.Runner
import Verif.Spec.Runtimes
import Verif.Spec.SamRun
import Verif.Spec.Scenario
import Verif.Spec.Schedule
import Verif.Spec.SecureRefs
import Verif.Spec.Specs
import Verif.Spec.Stages
import Verif.Spec.StateMachine
import Verif.Spec.Sub
import Verif.Spec.SubNeeded
import Verif.Spec.SubRule
import Verif.Spec.TableKeys
import Verif.Spec.Targets
import Verif.Spec.Template
import Verif.Spec.Transform
import Verif.Spec.Traverse
import Verif.Spec.Update
import Verif.Spec.UpdatePolicy
import Verif.Spec.ValueSpecs
import Verif.Spec.Yaml
import Verif.Spec.ZoneNames
import Verif.Spec.Zones
