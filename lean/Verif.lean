import Verif.Basic
import Verif.Model.Path
import Verif.Spec.Path
import Verif.Props.Targets
import Verif.Props.ShellQuote
import Verif.Props.Ninja
import Verif.Props.Make
import Verif.Props.Quoting
import Verif.Props.Xml
import Verif.Props.OrderedSet
import Verif.Props.Toposort
import Verif.Props.WriteOnDiff
import Verif.Proofs.Cycles
import Verif.Props.DepOrder
import Verif.Props.DepSettings
import Verif.Props.StaticLibs
import Verif.Props.Load
import Verif.Props.FileCycles
import Verif.Props.DeepTargets
import Verif.Props.MergeLists
import Verif.Props.MergeDicts
import Verif.Props.Configurations
import Verif.Props.ListFilters
import Verif.Props.DepLists
import Verif.Props.Scan
import Verif.Props.CheckedEval
import Verif.Props.MakeRules
import Verif.Props.Parallel
import Verif.Props.Conditions
import Verif.Props.Expand
import Verif.Props.VersionOrder
import Verif.Props.VersionText
import Verif.Props.ExpandMore
import Verif.Props.AnalyzerExamples
import Verif.Props.Shard
import Verif.Props.XcodeEnv
import Verif.Props.Cli
import Verif.Props.Shasums
import Verif.Props.Install
import Verif.Props.Release
import Verif.Props.FindPython
import Verif.Props.FindVS
import Verif.Props.UpdateGyp
import Verif.Props.Options
import Verif.Props.SimpleCopy
import Verif.Model.ConfigGypi
import Verif.Spec.Json
import Verif.Props.ConfigGypi
import Verif.Model.Build
import Verif.Spec.Build
import Verif.Props.Build
import Verif.Model.Configure
import Verif.Spec.Configure
import Verif.Props.Configure
import Verif.Model.Includes
import Verif.Spec.Includes
import Verif.Props.Includes
import Verif.Model.TargetFile
import Verif.Spec.TargetFile
import Verif.Props.TargetFile
import Verif.Model.Settings
import Verif.Spec.Settings
import Verif.Props.Settings
import Verif.Model.Splitext
import Verif.Model.Validate
import Verif.Spec.Validate
import Verif.Props.Validate
import Verif.Model.MakeGen
import Verif.Spec.MakeGraph
import Verif.Spec.MakeNames
import Verif.Proofs.MakeText
import Verif.Proofs.MakePaths
import Verif.Proofs.MakeSections
import Verif.Proofs.MakeState
import Verif.Proofs.MakeValues
import Verif.Proofs.MakeOrderBase
import Verif.Proofs.MakeObjects
import Verif.Proofs.MakePatterns
import Verif.Props.MakeWritten
import Verif.Props.MakeOrder
import Verif.Props.MakeCompile
import Verif.Model.MakeBuild
import Verif.Spec.MakeBuild
import Verif.Proofs.MakeInstall
import Verif.Props.MakeBuild
import Verif.Props.MakeProducts
import Verif.Spec.MakeRun
import Verif.Spec.MakeFlags
import Verif.Model.MakeCommands
import Verif.Proofs.MakeDeep
import Verif.Proofs.MakeLocals
import Verif.Proofs.MakeFlags
import Verif.Proofs.MakeArgs
import Verif.Props.MakeFlags
import Verif.Spec.MakeActions
import Verif.Proofs.MakeActions
import Verif.Proofs.MakeActionVars
import Verif.Proofs.MakeScripts
import Verif.Props.MakeActions
import Verif.Spec.MakeFunctions
import Verif.Spec.MakeRemake
import Verif.Model.MakeHeader
import Verif.Proofs.MakeHeader
import Verif.Proofs.MakeRemake
import Verif.Proofs.MakeRerun
import Verif.Props.MakeRemake
import Verif.Model.Log
import Verif.Spec.Log
import Verif.Props.Log
import Verif.Model.MsvsEscape
import Verif.Spec.Msbuild
import Verif.Proofs.MsvsEscape
import Verif.Proofs.MsvsVcproj
import Verif.Props.MsvsEscape
import Verif.Model.MsvsSettings
import Verif.Model.MsvsTable
import Verif.Spec.Msvs
import Verif.Proofs.MsvsMacros
import Verif.Proofs.MsvsSettings
import Verif.Proofs.MsvsConvert
import Verif.Proofs.MsvsValidate
import Verif.Props.Msvs
import Verif.Model.MsvsSources
import Verif.Spec.MsvsSources
import Verif.Proofs.MsvsSources
import Verif.Proofs.MsvsItems
import Verif.Proofs.MsvsDetails
import Verif.Props.MsvsSources
import Verif.Model.MakeRoot
import Verif.Spec.MakeRoot
import Verif.Proofs.MakeRoot
import Verif.Props.MakeRoot
import Verif.Model.MsvsActions
import Verif.Spec.MsvsActions
import Verif.Proofs.MsvsActions
import Verif.Props.MsvsActions
import Verif.Model.BaseConfig
import Verif.Spec.BaseConfig
import Verif.Proofs.BaseConfig
import Verif.Props.BaseConfig
import Verif.Model.Remove
import Verif.Spec.Remove
import Verif.Props.Remove
import Verif.Model.NodeRoot
import Verif.Spec.NodeRoot
import Verif.Props.NodeRoot
import Verif.Model.MsvsSolution
import Verif.Spec.MsvsSolution
import Verif.Spec.SlnInput
import Verif.Proofs.SlnTree
import Verif.Proofs.SlnEntries
import Verif.Proofs.SlnText
import Verif.Proofs.SlnFacts
import Verif.Proofs.SlnCore
import Verif.Proofs.SlnRead
import Verif.Props.MsvsSolution
import Verif.Model.MsvsProps
import Verif.Spec.MsbuildProps
import Verif.Proofs.MsvsProps
import Verif.Proofs.MsvsProject
import Verif.Props.MsvsProps
import Verif.Spec.Cygwin
import Verif.Props.MsvsCygwin
import Verif.Model.MsvsFinal
import Verif.Spec.MsvsFinal
import Verif.Proofs.MsvsFinal
import Verif.Props.MsvsFinal
import Verif.Model.MakeTools
import Verif.Spec.MakeTools
import Verif.Proofs.MakeTools
import Verif.Props.MakeTools
import Verif.Model.CompileCommands
import Verif.Spec.CompileCommands
import Verif.Props.CompileCommands
import Verif.Model.VsVersion
import Verif.Spec.VsVersion
import Verif.Props.VsVersion
import Verif.Model.XcodeFlags
import Verif.Spec.XcodeFlags
import Verif.Props.XcodeFlags
import Verif.Model.XcodeLink
import Verif.Spec.XcodeLink
import Verif.Props.XcodeLink
import Verif.Model.CaFile
import Verif.Spec.CaFile
import Verif.Props.CaFile
import Verif.Model.Registry
import Verif.Spec.Registry
import Verif.Props.Registry
import Verif.Model.Flavor
import Verif.Spec.Flavor
import Verif.Props.Flavor
import Verif.Model.MsvsRules
import Verif.Spec.MsvsRules
import Verif.Props.MsvsRules
import Verif.Model.NinjaPaths
import Verif.Model.NinjaGraph
import Verif.Spec.NinjaPaths
import Verif.Props.NinjaPaths
import Verif.Spec.NinjaGraph
import Verif.Proofs.NinjaGraph
import Verif.Props.NinjaGraph
import Verif.Props.NinjaLink
import Verif.Model.MsvsGlobals
import Verif.Spec.MsvsGlobals
import Verif.Props.MsvsGlobals
import Verif.Model.LoadAll
import Verif.Spec.LoadAll
import Verif.Proofs.LoadAll
import Verif.Props.LoadAll
import Verif.Model.Pbx
import Verif.Spec.Pbx
import Verif.Proofs.Pbx
import Verif.Props.Pbx
import Verif.Model.Postbuilds
import Verif.Spec.Postbuilds
import Verif.Proofs.Postbuilds
import Verif.Props.Postbuilds
import Verif.Model.CMake
import Verif.Spec.CMake
import Verif.Proofs.CMake
import Verif.Props.CMake
import Verif.Props.CMakeActions
import Verif.Model.CMakeTarget
import Verif.Spec.CMakeTarget
import Verif.Proofs.CMakeTarget
import Verif.Props.CMakeTarget
import Verif.Props.CMakeDeps
import Verif.Model.XcodeGroups
import Verif.Spec.XcodeGroups
import Verif.Proofs.XcodeGroups
import Verif.Props.XcodeGroups
import Verif.Model.MacBundle
import Verif.Spec.MacBundle
import Verif.Props.MacBundle
import Verif.Model.XcodeIds
import Verif.Spec.XcodeIds
import Verif.Props.XcodeIds
import Verif.Model.CMakeCopies
import Verif.Spec.CMakeCopies
import Verif.Props.CMakeCopies
import Verif.Model.CMakeRules
import Verif.Spec.CMakeRules
import Verif.Props.CMakeRules
import Verif.Model.Specifiers
import Verif.Spec.Specifiers
import Verif.Proofs.Specifiers
import Verif.Props.Specifiers
import Verif.Model.XcodeSort
import Verif.Spec.XcodeSort
import Verif.Props.XcodeSort
import Verif.Model.HeaderMap
import Verif.Spec.HeaderMap
import Verif.Props.HeaderMap
import Verif.Model.MacSign
import Verif.Spec.MacSign
import Verif.Props.MacSign
import Verif.Model.Markers
import Verif.Spec.Markers
import Verif.Proofs.Markers
import Verif.Props.Markers
import Verif.Model.LargePdb
import Verif.Spec.LargePdb
import Verif.Proofs.LargePdb
import Verif.Props.LargePdb
import Verif.Model.Canonical
import Verif.Spec.Canonical
import Verif.Proofs.Canonical
import Verif.Props.Canonical
import Verif.Model.WheelNames
import Verif.Spec.WheelNames
import Verif.Proofs.WheelNames
import Verif.Props.WheelNames
import Verif.Model.SysTags
import Verif.Spec.SysTags
import Verif.Proofs.SysTags
import Verif.Props.SysTags
import Verif.Model.MacTags
import Verif.Spec.MacTags
import Verif.Props.MacTags
import Verif.Model.ElfFile
import Verif.Spec.ElfFile
import Verif.Props.ElfFile
import Verif.Model.XcodeNinja
import Verif.Spec.XcodeNinja
import Verif.Props.XcodeNinja
import Verif.Model.MsvsUser
import Verif.Spec.MsvsUser
import Verif.Props.MsvsUser
import Verif.Model.LockTool
import Verif.Spec.LockTool
import Verif.Props.LockTool
import Verif.Model.LibcVersion
import Verif.Spec.LibcVersion
import Verif.Props.LibcVersion
