import Verif.Base
import Verif.Heap.Props
import Verif.Qsort.Props
import Verif.Random.ShuffleProps
import Verif.Random.MTProps
import Verif.Isqrt.Props
import Verif.Strings.Props
import Verif.Endian.Props
import Verif.Pgm.Props
import Verif.Pgm.HeadProps
import Verif.Lbp.Props
import Verif.Imop.IntegralProps
import Verif.Imop.ConvProps
import Verif.Imop.TriProps
import Verif.Imop.DistProps
import Verif.Linear.Props
import Verif.AllPairs.Props
import Verif.KdTree.StatProps
import Verif.KdTree.VarSpec
import Verif.KdTree.VarProps
import Verif.KdTree.QueryProps
import Verif.KdTree.BatchProps
import Verif.Ikm.Props
import Verif.Ikm.TrainProps
import Verif.Ikm.ElkanProps
import Verif.Ikm.SeedProps
import Verif.Hikm.Props
import Verif.Hikm.MatlabProps
import Verif.Kmeans.LloydProps
import Verif.Kmeans.ElkanProps
import Verif.Kmeans.ClusterProps
import Verif.Kmeans.SeedProps
import Verif.Toolbox.AibhistProps
import Verif.Toolbox.ArrayProps
import Verif.Toolbox.BinsumProps
import Verif.Toolbox.HashProps
import Verif.Toolbox.ImdistProps
import Verif.Toolbox.IntHistProps
import Verif.Toolbox.LocalmaxProps
import Verif.Toolbox.WarpProps
import Verif.Toolbox.AllDistProps
import Verif.Toolbox.SmoothProps
import Verif.Hog.PermProps
import Verif.Hog.AccProps
import Verif.Hog.PolarProps
import Verif.Hog.ExtProps
import Verif.Hog.Examples
import Verif.Dsift.TransposeProps
import Verif.Dsift.Props
import Verif.Dsift.DescrModel
import Verif.Dsift.DescrSpec
import Verif.Dsift.DescrLemmas
import Verif.Dsift.DescrProps
import Verif.Dsift.MirrorProps
import Verif.Scalespace.Props
import Verif.Threads.LockProps
import Verif.Threads.ErrorProps
import Verif.Generic.Props
import Verif.Getopt.Props
import Verif.Sift.OrientProps
import Verif.Sift.GaussProps
import Verif.Sift.DetectProps
import Verif.Sift.ResampleProps
import Verif.Sift.GradProps
import Verif.Sift.OctaveProps
import Verif.Sift.DescrProps
import Verif.Liop.Props
import Verif.Ubc.Props
import Verif.Erfill.Props
import Verif.Quickshift.Props
import Verif.Quickshift.MedoidProps
import Verif.Slic.SegProps
import Verif.Mser.SortProps
import Verif.Mser.GrowProps
import Verif.Mser.ProcessProps
import Verif.Mser.IndepProps
import Verif.Mser.EllProps
import Verif.Rows
import Verif.Vlad.Model
import Verif.Vlad.Spec
import Verif.Vlad.Props
import Verif.Gmm.Model
import Verif.Gmm.Spec
import Verif.Gmm.ELemmas
import Verif.Gmm.EProps
import Verif.Gmm.MLemmas
import Verif.Gmm.MProps
import Verif.Fisher.Model
import Verif.Fisher.Spec
import Verif.Fisher.Lemmas
import Verif.Fisher.Props
import Verif.Gmm.EmModel
import Verif.Gmm.EmProps
import Verif.Aib.Model
import Verif.Aib.Spec
import Verif.Aib.InfoLemmas
import Verif.Aib.BetaLemmas
import Verif.Aib.MergeLemmas
import Verif.Aib.TreeLemmas
import Verif.Aib.Props
import Verif.Homker.Model
import Verif.Homker.Spec
import Verif.Homker.Lemmas
import Verif.Homker.Props
import Verif.Rodrigues.Model
import Verif.Rodrigues.Spec
import Verif.Rodrigues.ExpLemmas
import Verif.Rodrigues.Lemmas
import Verif.Rodrigues.DerivLemmas
import Verif.Rodrigues.RotLemmas
import Verif.Rodrigues.Props
import Verif.Rodrigues.AxisLemmas
import Verif.Rodrigues.InvLemmas
import Verif.Rodrigues.InvProps
import Verif.Rodrigues.InvDeriv
import Verif.Svm.LossModel
import Verif.Svm.Model
import Verif.Svm.Spec
import Verif.Svm.LossProps
import Verif.Svm.DataProps
import Verif.Svm.DualLemmas
import Verif.Svm.LoopLemmas
import Verif.Svm.StatProps
import Verif.Svm.SdcaProps
import Verif.Svm.SgdProps
import Verif.Svm.LogisticProps
import Verif.Svm.Props
import Verif.Covdet.FeatProps
import Verif.Covdet.ExtremaProps
import Verif.Imop.GradProps
import Verif.Covdet.ResponseProps
import Verif.Covdet.PatchProps
import Verif.Covdet.LevelProps
import Verif.Covdet.OriProps
import Verif.Covdet.LapProps
import Verif.Covdet.AffineProps
import Verif.Mathop.CompareProps
import Verif.Mathop.SimdProps
import Verif.Mathop.FastProps
import Verif.Mathop.FastAtanProps
import Verif.Mathop.FastSqrtProps
import Verif.Mathop.SvdProps
import Verif.Imop.ConvSimdProps
import Verif.Sift.MexProps
import Verif.Sift.DetectedProps
import Verif.KdTree.MatlabModel
import Verif.KdTree.MatlabProps
import Verif.Kmeans.AnnModel
import Verif.Kmeans.AnnProps
import Verif.Gmm.InitModel
import Verif.Gmm.InitProps
import Verif.Hog.RenderModel
import Verif.Hog.RenderProps
import Verif.Sift.ScaleModel
import Verif.Sift.ScaleSpec
import Verif.Sift.ScaleProps
import Verif.Covdet.BankModel
import Verif.Covdet.BankProps
import Verif.Plotop.CurveModel
import Verif.Plotop.CurveSpec
import Verif.Plotop.CurveProps
import Verif.Pgm.FileModel
import Verif.Pgm.FileProps
import Verif.Life.CovProps
import Verif.Life.SiftProps
import Verif.Life.HogProps
import Verif.Life.SdProps
import Verif.Life.TempModel
import Verif.Life.TempProps
import Verif.Life.SmallModel
import Verif.Life.SmallProps
import Verif.Life.Model
import Verif.Life.HeapProps
import Verif.Life.KmLemmas
import Verif.Life.KmProps
import Verif.Life.GmmModel
import Verif.Life.GmmLemmas
import Verif.Life.GmmProps
import Verif.Life.FailModel
import Verif.Life.FailProps
import Verif.Life.KdModel
import Verif.Life.KdLemmas
import Verif.Life.KdProps
import Verif.Life.BufModel
import Verif.Life.BufLemmas
import Verif.Life.BufProps
import Verif.Host.Model
import Verif.Host.Props
import Verif.Host.SelectModel
import Verif.Host.SelectProps
import Verif.Threads.RandModel
import Verif.Threads.RandProps
import Verif.Covdet.TurnModel
import Verif.Covdet.TurnProps
