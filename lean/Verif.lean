import Verif.Lemmas.Angles
import Verif.Lemmas.Assembly
import Verif.Lemmas.Bragg
import Verif.Lemmas.Broad
import Verif.Lemmas.Buffer
import Verif.Lemmas.Builder
import Verif.Lemmas.CKernel
import Verif.Lemmas.Cache
import Verif.Lemmas.Chain
import Verif.Lemmas.CmakeSrc
import Verif.Lemmas.Composite
import Verif.Lemmas.CppClass
import Verif.Lemmas.DataFiles
import Verif.Lemmas.Debye
import Verif.Lemmas.DetMerge
import Verif.Lemmas.Detector
import Verif.Lemmas.Dos
import Verif.Lemmas.Elementary
import Verif.Lemmas.Exchange
import Verif.Lemmas.Facility
import Verif.Lemmas.FactoryPy
import Verif.Lemmas.Flight
import Verif.Lemmas.Frames
import Verif.Lemmas.Gather
import Verif.Lemmas.Geometer
import Verif.Lemmas.Group
import Verif.Lemmas.Help
import Verif.Lemmas.Homog
import Verif.Lemmas.IdfNeutron
import Verif.Lemmas.IdfPhonon
import Verif.Lemmas.Ikeda
import Verif.Lemmas.KernelXml
import Verif.Lemmas.Kinem
import Verif.Lemmas.Lattice
import Verif.Lemmas.Launch
import Verif.Lemmas.Listing
import Verif.Lemmas.McBender
import Verif.Lemmas.McComp
import Verif.Lemmas.McCrystal
import Verif.Lemmas.McCurved
import Verif.Lemmas.McDetectors
import Verif.Lemmas.McFermi
import Verif.Lemmas.McGen
import Verif.Lemmas.McGravGuide
import Verif.Lemmas.McGuide
import Verif.Lemmas.McHyspecGuide
import Verif.Lemmas.McInstr
import Verif.Lemmas.McMonitors
import Verif.Lemmas.McMono
import Verif.Lemmas.McOptics
import Verif.Lemmas.McOptics2
import Verif.Lemmas.McPowderN
import Verif.Lemmas.McPulse
import Verif.Lemmas.McRotor
import Verif.Lemmas.McSample
import Verif.Lemmas.McSource
import Verif.Lemmas.McStas
import Verif.Lemmas.McStasBox
import Verif.Lemmas.McStasNormal
import Verif.Lemmas.McTable
import Verif.Lemmas.McTaper
import Verif.Lemmas.McTew
import Verif.Lemmas.McWavy
import Verif.Lemmas.Monitor
import Verif.Lemmas.MonoConf
import Verif.Lemmas.MtPeriod
import Verif.Lemmas.MtRandom
import Verif.Lemmas.Multi
import Verif.Lemmas.Multiphonon
import Verif.Lemmas.NdAxes
import Verif.Lemmas.NiceDos
import Verif.Lemmas.Parallel
import Verif.Lemmas.Peaks
import Verif.Lemmas.Phonon
import Verif.Lemmas.Powder
import Verif.Lemmas.Proxy
import Verif.Lemmas.PyBuf
import Verif.Lemmas.PyreGeo
import Verif.Lemmas.RegCmp
import Verif.Lemmas.RegDict
import Verif.Lemmas.Registry
import Verif.Lemmas.ResPixel
import Verif.Lemmas.Root
import Verif.Lemmas.Rounding
import Verif.Lemmas.Run
import Verif.Lemmas.Sampling
import Verif.Lemmas.SnsSource
import Verif.Lemmas.Solid
import Verif.Lemmas.SolidBBox
import Verif.Lemmas.SolidComp
import Verif.Lemmas.SolidHit
import Verif.Lemmas.SolidLocate
import Verif.Lemmas.SolidPyr
import Verif.Lemmas.SolidRay
import Verif.Lemmas.SolidRay2
import Verif.Lemmas.SolidSurf
import Verif.Lemmas.Sources
import Verif.Lemmas.Spheres
import Verif.Lemmas.Storage
import Verif.Lemmas.StorageFiles
import Verif.Lemmas.StsSource
import Verif.Lemmas.Table
import Verif.Lemmas.TewSave
import Verif.Lemmas.WorkDir
import Verif.Lemmas.WrapCc
import Verif.Lemmas.Xtal
import Verif.Lemmas.XtalPoly
import Verif.Lemmas.XtalWave
import Verif.Model.Assembly
import Verif.Model.Base
import Verif.Model.Bragg
import Verif.Model.Broad
import Verif.Model.Buffer
import Verif.Model.Builder
import Verif.Model.CKernel
import Verif.Model.Cache
import Verif.Model.Chain
import Verif.Model.CmakeSrc
import Verif.Model.Composite
import Verif.Model.CppClass
import Verif.Model.DataFiles
import Verif.Model.Debye
import Verif.Model.DetMerge
import Verif.Model.Detector
import Verif.Model.Dos
import Verif.Model.Elementary
import Verif.Model.Exchange
import Verif.Model.Facility
import Verif.Model.FactoryPy
import Verif.Model.Flight
import Verif.Model.Frames
import Verif.Model.Gather
import Verif.Model.Geometer
import Verif.Model.Group
import Verif.Model.Help
import Verif.Model.Homog
import Verif.Model.IdfNeutron
import Verif.Model.IdfPhonon
import Verif.Model.Ikeda
import Verif.Model.KernelXml
import Verif.Model.Kinem
import Verif.Model.Lattice
import Verif.Model.Launch
import Verif.Model.Listing
import Verif.Model.McBender
import Verif.Model.McComp
import Verif.Model.McConst
import Verif.Model.McCrystal
import Verif.Model.McCurved
import Verif.Model.McFermi
import Verif.Model.McGen
import Verif.Model.McGravGuide
import Verif.Model.McGuide
import Verif.Model.McHyspecGuide
import Verif.Model.McInstr
import Verif.Model.McMonitors
import Verif.Model.McOptics
import Verif.Model.McOptics2
import Verif.Model.McPowderN
import Verif.Model.McPulse
import Verif.Model.McRotor
import Verif.Model.McSample
import Verif.Model.McSource
import Verif.Model.McStas
import Verif.Model.McTable
import Verif.Model.McTaper
import Verif.Model.McTew
import Verif.Model.McWavy
import Verif.Model.Monitor
import Verif.Model.MonoConf
import Verif.Model.MtRandom
import Verif.Model.Multiphonon
import Verif.Model.NdAxes
import Verif.Model.NiceDos
import Verif.Model.Parallel
import Verif.Model.Peaks
import Verif.Model.Phonon
import Verif.Model.Powder
import Verif.Model.Proxy
import Verif.Model.PyBuf
import Verif.Model.PyreGeo
import Verif.Model.RegCmp
import Verif.Model.RegDict
import Verif.Model.Registry
import Verif.Model.ResPixel
import Verif.Model.Root
import Verif.Model.Rounding
import Verif.Model.Run
import Verif.Model.Sampling
import Verif.Model.SnsSource
import Verif.Model.Solid
import Verif.Model.Sources
import Verif.Model.Storage
import Verif.Model.StorageFiles
import Verif.Model.StsSource
import Verif.Model.Table
import Verif.Model.TewSave
import Verif.Model.Vec
import Verif.Model.VitessRun
import Verif.Model.WorkDir
import Verif.Model.WrapCc
import Verif.Model.Xtal
import Verif.Props.Assembly
import Verif.Props.Bragg
import Verif.Props.Broad
import Verif.Props.Builder
import Verif.Props.CKernel
import Verif.Props.Chain
import Verif.Props.CmakeSrc
import Verif.Props.Composite
import Verif.Props.CppClass
import Verif.Props.DataFiles
import Verif.Props.Debye
import Verif.Props.DetMerge
import Verif.Props.Detector
import Verif.Props.Dos
import Verif.Props.Elementary
import Verif.Props.Exchange
import Verif.Props.Facility
import Verif.Props.FactoryPy
import Verif.Props.Flight
import Verif.Props.Frames
import Verif.Props.Gather
import Verif.Props.Geometer
import Verif.Props.Group
import Verif.Props.Help
import Verif.Props.Homog
import Verif.Props.IdfNeutron
import Verif.Props.IdfPhonon
import Verif.Props.Ikeda
import Verif.Props.KernelXml
import Verif.Props.Kinem
import Verif.Props.Lattice
import Verif.Props.Launch
import Verif.Props.Listing
import Verif.Props.McBender
import Verif.Props.McChoppers
import Verif.Props.McComp
import Verif.Props.McConst
import Verif.Props.McCrystal
import Verif.Props.McCurved
import Verif.Props.McDetectors
import Verif.Props.McFermi
import Verif.Props.McGen
import Verif.Props.McGravGuide
import Verif.Props.McGuide
import Verif.Props.McHyspecGuide
import Verif.Props.McInstr
import Verif.Props.McMonitors
import Verif.Props.McMono
import Verif.Props.McOptics
import Verif.Props.McOptics2
import Verif.Props.McPowderN
import Verif.Props.McPulse
import Verif.Props.McRotor
import Verif.Props.McSample
import Verif.Props.McSource
import Verif.Props.McStas
import Verif.Props.McTable
import Verif.Props.McTaper
import Verif.Props.McTew
import Verif.Props.McWavy
import Verif.Props.Monitor
import Verif.Props.MonoConf
import Verif.Props.MtRandom
import Verif.Props.Multi
import Verif.Props.Multiphonon
import Verif.Props.NdAxes
import Verif.Props.NiceDos
import Verif.Props.Parallel
import Verif.Props.Peaks
import Verif.Props.Phonon
import Verif.Props.Powder
import Verif.Props.Proxy
import Verif.Props.PyBuf
import Verif.Props.PyreGeo
import Verif.Props.RegCmp
import Verif.Props.RegDict
import Verif.Props.Registry
import Verif.Props.ResPixel
import Verif.Props.Root
import Verif.Props.Rounding
import Verif.Props.Run
import Verif.Props.Sampling
import Verif.Props.SnsSource
import Verif.Props.Solid
import Verif.Props.Sources
import Verif.Props.Spheres
import Verif.Props.Storage
import Verif.Props.StorageFiles
import Verif.Props.StsSource
import Verif.Props.Table
import Verif.Props.TewSave
import Verif.Props.VitessRun
import Verif.Props.WorkDir
import Verif.Props.WrapCc
import Verif.Props.Xtal
import Verif.Props.XtalPoly
import Verif.Props.XtalWave
import Verif.Spec.Assembly
import Verif.Spec.Bragg
import Verif.Spec.Broad
import Verif.Spec.Builder
import Verif.Spec.CKernel
import Verif.Spec.Chain
import Verif.Spec.CmakeSrc
import Verif.Spec.Composite
import Verif.Spec.CppClass
import Verif.Spec.DataFiles
import Verif.Spec.Debye
import Verif.Spec.DetMerge
import Verif.Spec.Detector
import Verif.Spec.Dos
import Verif.Spec.Elementary
import Verif.Spec.Exchange
import Verif.Spec.Facility
import Verif.Spec.FactoryPy
import Verif.Spec.Flight
import Verif.Spec.Frames
import Verif.Spec.Gather
import Verif.Spec.Geometer
import Verif.Spec.Group
import Verif.Spec.Help
import Verif.Spec.Homog
import Verif.Spec.IdfNeutron
import Verif.Spec.IdfPhonon
import Verif.Spec.Ikeda
import Verif.Spec.KernelXml
import Verif.Spec.Kinem
import Verif.Spec.Lattice
import Verif.Spec.Launch
import Verif.Spec.Listing
import Verif.Spec.McBender
import Verif.Spec.McComp
import Verif.Spec.McCrystal
import Verif.Spec.McCurved
import Verif.Spec.McDetectors
import Verif.Spec.McFermi
import Verif.Spec.McGen
import Verif.Spec.McGravGuide
import Verif.Spec.McGuide
import Verif.Spec.McHyspecGuide
import Verif.Spec.McInstr
import Verif.Spec.McMonitors
import Verif.Spec.McOptics
import Verif.Spec.McOptics2
import Verif.Spec.McPowderN
import Verif.Spec.McPulse
import Verif.Spec.McRotor
import Verif.Spec.McSample
import Verif.Spec.McSource
import Verif.Spec.McStas
import Verif.Spec.McTable
import Verif.Spec.McTaper
import Verif.Spec.McTew
import Verif.Spec.McWavy
import Verif.Spec.Monitor
import Verif.Spec.MonoConf
import Verif.Spec.MtRandom
import Verif.Spec.Multi
import Verif.Spec.Multiphonon
import Verif.Spec.NdAxes
import Verif.Spec.NiceDos
import Verif.Spec.Parallel
import Verif.Spec.Peaks
import Verif.Spec.Phonon
import Verif.Spec.Powder
import Verif.Spec.Proxy
import Verif.Spec.PyBuf
import Verif.Spec.PyreGeo
import Verif.Spec.RegCmp
import Verif.Spec.RegDict
import Verif.Spec.Registry
import Verif.Spec.ResPixel
import Verif.Spec.Root
import Verif.Spec.Rounding
import Verif.Spec.Run
import Verif.Spec.Sampling
import Verif.Spec.SnsSource
import Verif.Spec.Solid
import Verif.Spec.Sources
import Verif.Spec.Storage
import Verif.Spec.StsSource
import Verif.Spec.Table
import Verif.Spec.TewSave
import Verif.Spec.VitessRun
import Verif.Spec.WrapCc
import Verif.Spec.Xtal
