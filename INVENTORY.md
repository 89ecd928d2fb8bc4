# Which parts of the code are modelled

Generated from the citations in `lean/Verif/Model`. For each function of `/repo/kalepy`: the lines of its body, how many
of them are cited by the comment of a model definition, and the definitions (module: name) that cite them.

## kalepy/__init__.py

| function | lines | cited | model definitions |
|---|---|---|---|
| `density` | 138-140 | 3/3 | `KDE: kalepyDensity` |
| `pdf` | 207-209 | 3/3 | `KDE: kalepyPdf` |
| `resample` | 253-255 | 3/3 | `Resample: kalepyResample` |

## kalepy/kde.py

| function | lines | cited | model definitions |
|---|---|---|---|
| `KDE.__init__` | 170-271 | 102/102 | `Alias: KDEObj.new`, `Finalize: KDE.initLog`, `IntData: KDE.densityT`, `KDE: checkWeights`, `KDE: effNum`, `KDE: npCov`, `KDE: kernelOut`, `KDE: effExtrema`, `KDE: extremaArg`, `KDE: covArg`, `KDE: KDE.init`, `KDE: kalepyPdf`, `LinAlg: Ext`, `Missing: npCovN`, `Missing: covArgN`, `Missing: MissKDE.init`, `Parse: ReflRow.toExt` |
| `KDE.density` | 324-399 | 76/76 | `Dist1d: dist1dDensity`, `IntData: KDE.evalKernelT`, `IntData: KDE.densityT`, `KDE: paramSel`, `KDE: selectRows`, `KDE: KDE.defaultReflect`, `KDE: reflectLength`, `KDE: PtsUse`, `KDE: KDE.choosePoints`, `KDE: meshRows`, `KDE: selectCols`, `KDE: KDE.evalKernel`, `KDE: KDE.totalWeight`, `KDE: packResult`, `KDE: KDE.density`, `Kernels: densityParams`, `Missing: selectColsN`, `Missing: MissKDE.defaultReflect`, `Missing: MissKDE.totalWeight`, `Missing: MissKDE.density` |
| `KDE.from_hist` | 427-480 | 53/54 | `KDE: histCenters`, `KDE: KDE.fromHist1`, `KDE: gridPoints`, `KDE: KDE.fromHistN` |
| `KDE.pdf` | 483-484 | 2/2 | `KDE: KDE.pdf` |
| `KDE.cdf` | 500-529 | 30/30 | `KDE: cdfOf`, `KDE: KDE.cdfGrid`, `KDE: cdfPoints`, `KDE: KDE.cdf`, `RoundedCdf: cdfFl` |
| `KDE.resample` | 564-572 | 9/9 | `IntResample: KDE.resampleT`, `MissingResample: MissKDE.resample`, `Resample: KDE.resample`, `SampleArrays: KDE.resampleArr` |
| `KDE._finalize` | 578-623 | 46/46 | `Finalize: KDEWarning`, `Finalize: offDiagonal`, `Finalize: logAbs`, `Finalize: finalizeLog` |
| `KDE.bandwidth` | 629-629 | 0/1 | accessor; a field of the state record in the model |
| `KDE.covariance` | 633-633 | 0/1 | accessor; a field of the state record in the model |
| `KDE.dataset` | 637-637 | 0/1 | accessor; a field of the state record in the model |
| `KDE.points` | 644-660 | 17/17 | `Alias: KDEObj.call`, `KDE: extremaList`, `KDE: KDE.computePoints`, `KDE: KDE.shapePoints`, `KDE: KDE.points` |
| `KDE.extrema` | 664-664 | 0/1 | accessor; a field of the state record in the model |
| `KDE.kernel` | 668-668 | 0/1 | accessor; a field of the state record in the model |
| `KDE.ndata` | 672-672 | 0/1 | accessor; a field of the state record in the model |
| `KDE.ndim` | 676-676 | 0/1 | accessor; a field of the state record in the model |
| `KDE.neff` | 680-680 | 0/1 | accessor; a field of the state record in the model |
| `KDE.reflect` | 684-684 | 0/1 | accessor; a field of the state record in the model |
| `KDE.weights` | 688-688 | 0/1 | accessor; a field of the state record in the model |
| `KDE._set_bandwidth` | 693-741 | 28/49 | `KDE: rescaleBw`, `KDE: bwMatrix` |
| `KDE._compute_bandwidth` | 744-769 | 26/26 | `KDE: computeBw` |
| `KDE._scott_factor` | 772-772 | 1/1 | `KDE: scottFactor` |
| `KDE._silverman_factor` | 775-775 | 1/1 | `KDE: silvermanFactor` |

## kalepy/kernels.py

| function | lines | cited | model definitions |
|---|---|---|---|
| `_triweight_cdf` | 23-24 | 2/2 | `Resample: triweightCdf` |
| `Kernel.__init__` | 37-50 | 14/14 | `Kernels: Kernel`, `Kernels: init` |
| `Kernel.density` | 63-136 | 74/74 | `IntData: reflectColT`, `IntData: reflectAddT`, `IntData: reflectStepT`, `IntData: densityCoreT`, `IntData: Kernel.densityT`, `IntData: Kernel.densityParamsT`, `KDE: toCols`, `Kernels: reflectCol`, `Kernels: outsideRow`, `Kernels: reflectAdd`, `Kernels: reflectStep`, `Kernels: densityCore`, `Kernels: density`, `Kernels: densityParams`, `LinAlg: cholesky`, `Missing: reflectColN`, `Missing: outsideRowN`, `Missing: reflectAddN`, `Missing: reflectStepN`, `Missing: densityCoreN`, `Missing: normParamsN`, `Missing: toColsN`, `Missing: MissKDE.evalKernel`, `Rounded: reflectAddFl`, `Rounded: reflectStepFl`, `Rounded: densityFl` |
| `Kernel.resample` | 141-169 | 29/29 | `IntResample: Kernel.resampleT`, `Resample: Samples`, `Resample: squeezeSamples`, `Resample: Kernel.resample`, `SampleArrays: KDE.resampleArr` |
| `Kernel._resample_clear` | 174-210 | 37/37 | `IntResample: Kernel.resampleT`, `MissingResample: choiceDatumN`, `MissingResample: resampleClearN`, `Resample: Draw`, `Resample: keepDims`, `Resample: zeroDims`, `Resample: choiceOk`, `Resample: resampleClear`, `Rounded: choiceIndexFl` |
| `Kernel._resample_reflect` | 215-286 | 72/72 | `IntResample: drawDataT`, `IntResample: drawWeightsT`, `IntResample: resampleReflectT`, `MissingResample: drawDataN`, `MissingResample: drawWeightsN`, `MissingResample: rejectLoopN`, `MissingResample: MissKDE.resampleReflect`, `Resample: drawData`, `Resample: drawWeights`, `Resample: chunking`, `Resample: nextDraw`, `Resample: rejectLoop`, `Resample: resampleReflect` |
| `Kernel._reflect_data` | 296-326 | 31/31 | `IntResample: mirrorDataT`, `IntResample: mirrorDimT`, `IntResample: reflectDataT`, `IntResample: drawWeightsT`, `MissingResample: mirrorDataN`, `MissingResample: mirrorDimN`, `MissingResample: reflectDataN`, `MissingResample: insideBoundsN`, `MissingResample: drawWeightsN`, `Resample: mirrorData`, `Resample: mirrorDim`, `Resample: boundOf`, `Resample: reflectData`, `Resample: reflectWeights` |
| `Kernel._truncate_reflections` | 331-340 | 10/10 | `MissingResample: drawDataN`, `MissingResample: drawWeightsN`, `Resample: truncateData`, `Resample: truncateWeights` |
| `Kernel._get_truncation_bounds` | 343-358 | 0/16 | **not modelled** |
| `Kernel.bandwidth` | 364-364 | 0/1 | accessor; a field of the state record in the model |
| `Kernel.covariance` | 368-368 | 0/1 | accessor; a field of the state record in the model |
| `Kernel.distribution` | 372-372 | 0/1 | accessor; a field of the state record in the model |
| `Kernel.matrix` | 376-376 | 0/1 | accessor; a field of the state record in the model |
| `Kernel.matrix_inv` | 380-385 | 6/6 | `Kernels: matrixInv` |
| `Kernel.norm` | 389-391 | 3/3 | `Kernels: normVal`, `Missing: normN` |
| `Kernel.FINITE` | 395-395 | 0/1 | **not modelled** |
| `_Distribution.evaluate` | 415-420 | 6/6 | `Distribution: PointsArr.cols`, `Distribution: evaluate` |
| `_Distribution.sample` | 424-434 | 11/11 | `Distribution: sampleArray` |
| `_Distribution._evaluate` | 444-444 | 0/1 | abstract method |
| `_Distribution.norm` | 449-449 | 0/1 | abstract method |
| `_Distribution._sample` | 454-454 | 0/1 | abstract method |
| `_Distribution.inside` | 459-459 | 0/1 | abstract method |
| `_Distribution.grid` | 465-471 | 7/7 | `Distribution: grid` |
| `_Distribution.name` | 475-476 | 2/2 | `Registry: Dist.name` |
| `_Distribution.FINITE` | 480-480 | 0/1 | accessor; a field of the state record in the model |
| `_Distribution.SYMMETRIC` | 484-484 | 0/1 | accessor; a field of the state record in the model |
| `Gaussian._evaluate` | 494-494 | 1/1 | `Kernels: eval`, `Missing: Dist.evalN`, `Rounded: Dist.evalFl` |
| `Gaussian.norm` | 498-499 | 2/2 | `Kernels: norm` |
| `Gaussian._sample` | 503-505 | 3/3 | `Resample: Draw`, `Resample: Dist.sample` |
| `Gaussian.inside` | 509-513 | 5/5 | `Distribution: inside` |
| `Box.norm` | 522-522 | 1/1 | `Kernels: norm` |
| `Box._evaluate` | 534-535 | 2/2 | `Kernels: eval`, `Missing: Dist.evalN`, `Rounded: Dist.evalFl` |
| `Box._sample` | 541-548 | 8/8 | `Resample: Draw`, `Resample: rad`, `Resample: Dist.sample` |
| `Box.inside` | 552-552 | 1/1 | `Distribution: inside` |
| `Parabola._evaluate` | 569-570 | 2/2 | `Kernels: eval`, `Missing: Dist.evalN`, `Rounded: Dist.evalFl` |
| `Parabola.norm` | 574-575 | 2/2 | `Kernels: norm` |
| `Parabola._sample` | 580-582 | 3/3 | `Resample: Draw`, `Resample: Dist.sample` |
| `Parabola.inside` | 586-586 | 1/1 | `Distribution: inside` |
| `Triweight.norm` | 595-595 | 1/1 | `Kernels: norm` |
| `Triweight._evaluate` | 605-606 | 2/2 | `Kernels: eval`, `Missing: Dist.evalN`, `Rounded: Dist.evalFl` |
| `Triweight._sample` | 610-614 | 5/5 | `Resample: Draw`, `Resample: rad`, `Resample: Dist.sample` |
| `Triweight.inside` | 618-618 | 1/1 | `Distribution: inside` |
| `_get_all_distribution_classes` | 638-646 | 9/9 | `Registry: appendNew`, `Registry: allDistributions` |
| `get_distribution_class` | 650-666 | 17/17 | `KDE: getDistribution` |
| `_inside_unit_nball` | 670-675 | 6/6 | `Distribution: insideUnitBall` |
| `_nball_vol` | 679-681 | 3/3 | `Kernels: nballVol` |
| `_beta_kernel_norm` | 690-693 | 4/4 | `Kernels: betaKernelNorm` |
| `_check_reflect` | 699-765 | 67/67 | `Alias: KDEObj.new`, `Parse: coerceRow`, `Parse: fillLo`, `Parse: orderedPair`, `Parse: checkDim`, `Parse: RefDim.good`, `Parse: reflectRows`, `Parse: checkDims`, `Parse: checkReflect`, `Parse: reflectAfter` |
| `_evaluate_numba` | 770-791 | 22/22 | `Kernels: whitenedDist2`, `Kernels: evaluateNumba`, `Missing: whitenedDist2N`, `Missing: evaluateN`, `Rounded: whitenFl`, `Rounded: dist2Fl`, `Rounded: evaluateOneFl`, `Rounded: evaluateFl` |

## kalepy/sample.py

| function | lines | cited | model definitions |
|---|---|---|---|
| `Sample_Grid.__init__` | 52-97 | 46/46 | `GridArgs: SampleGrid.initForms`, `GridArgs: GridArgs.init`, `GridArgs: GridArgs.build`, `Rounded: sampleInterpFl`, `Sample: gridChecks`, `Sample: SampleGrid.init`, `SamplerGrid: SamplerState`, `SamplerGrid: SamplerState.new` |
| `Sample_Grid._init_data` | 100-108 | 9/9 | `GridArgs: SampleGrid.initForms`, `GridArgs: GridArgs.init`, `GridArgs: GridArgs.build`, `Sample: massArg`, `Sample: scalarMassArg`, `Sample: initMasses`, `Sample: SampleGrid.init` |
| `Sample_Grid.sample` | 124-201 | 78/78 | `GridArgs: SampleGrid.sampleForms`, `NDArr: unravelIdx`, `Rounded: sampleUniformFl`, `Rounded: normDensFl`, `Rounded: sampleInterpFl`, `Sample: samplePos`, `Sample: scalarIncr`, `Sample: sampleOne`, `Sample: SampleGrid.sample`, `SamplerGrid: SamplerState.sample` |
| `Sample_Grid._random_bins` | 221-242 | 11/22 | `Sample: pickBin`, `Sample: Rand` |
| `Sample_Grid.grid` | 246-249 | 4/4 | `SamplerGrid: meshgridArrays`, `SamplerGrid: SamplerState.getGrid`, `SamplerGrid: SamplerState.step` |
| `Sample_Outliers.__init__` | 275-309 | 35/35 | `Sample: SampleOutliers`, `Sample: SampleOutliers.init` |
| `Sample_Outliers._init_data` | 314-318 | 5/5 | `Sample: initMasses`, `Sample: SampleOutliers.init` |
| `Sample_Outliers.sample` | 343-399 | 57/57 | `NDArr: unravelIdx`, `Sample: SampleOutliers.sample` |
| `sample_grid` | 432-438 | 7/7 | `Sample: sampleGridFn`, `SampleArrays: sampleGridArr` |
| `sample_grid_proportional` | 442-447 | 6/6 | `ProportionalArrays: sampleGridProportionalArr`, `Sample: portionRatio`, `Sample: sampleGridProportional` |
| `sample_outliers` | 478-486 | 9/9 | `Sample: sampleOutliersFn`, `SampleArrays: sampleOutliersArr` |
| `_grad_along` | 490-494 | 5/5 | `Grid: gradAlong` |
| `_intrabin_linear_interp` | 526-558 | 17/33 | `Rounded: intrabinFl`, `Sample: intrabin` |
| `_data_to_cumulative` | 563-584 | 22/22 | `Rounded: dataToCumulativeFl`, `Sample: dataToCumulative` |

## kalepy/utils.py

| function | lines | cited | model definitions |
|---|---|---|---|
| `add_cov` | 17-25 | 9/9 | `LinAlg: cholesky`, `LinAlg: addCov` |
| `array_str` | 29-48 | 20/20 | `Text: arrayStr` |
| `array_str._astr` | 32-40 | 9/9 | `Text: arrayStr` |
| `bins` | 61-64 | 4/4 | `RoundedSpacing: binsFl`, `Spacing: binsOf` |
| `bound_indices` | 72-90 | 19/19 | `MissingResample: insideBoundsN`, `Resample: insideBounds`, `Utils: inRow`, `Utils: boundIndices` |
| `centroids` | 106-203 | 98/98 | `Grid: cornerSum`, `Grid: trapezoidCom`, `Grid: centroid` |
| `cov_keep_vars` | 207-223 | 17/17 | `MissingResample: covKeepVarsN`, `Resample: keepDim`, `Resample: covKeepVars` |
| `cumsum` | 245-254 | 10/10 | `Grid: cumsumNd`, `RoundedCdf: cumsumNdFl` |
| `cumtrapz` | 283-297 | 15/15 | `Grid: cumtrapzPadding`, `Grid: cumtrapzNd`, `RoundedCdf: cdfFl` |
| `histogram` | 301-309 | 9/9 | `Dist1d: histEdges`, `Dist1d: histogramBins`, `Utils: totalWeight`, `Utils: histogram` |
| `matrix_invert` | 313-320 | 8/8 | `LinAlg: Ext`, `LinAlg: matrixInvert`, `Missing: NanInv`, `Missing: matrixInvertN` |
| `meshgrid` | 324-324 | 1/1 | `KDE: meshgrid` |
| `midpoints` | 351-371 | 21/21 | `Grid: midAxes`, `MidpointsNd: midpointsNd`, `RoundedSpacing: midpointsFl`, `Squeeze: NDArr.keptAxes`, `Squeeze: NDArr.squeeze`, `Squeeze: midpointsSq`, `Utils: midpoints1` |
| `minmax` | 375-426 | 52/52 | `Utils: stretchBy`, `Utils: applyPrev`, `Utils: applyLimit`, `Utils: minmax` |
| `parse_edges` | 433-466 | 34/34 | `Dist: parseEdgesParams`, `Parse: edgeSpecs`, `Parse: parseEdges`, `RoundedEdges: parseEdgesFl` |
| `iqrange` | 471-474 | 4/4 | `RoundedEdges: iqrangeFl`, `Utils: iqrange` |
| `quantiles` | 500-533 | 34/34 | `QuantilesAxis: sortLine`, `QuantilesAxis: quantileLine`, `QuantilesAxis: quantilesAxis`, `RoundedEdges: quantileGridFl`, `RoundedEdges: quantilesFl`, `Utils: quantileGrid`, `Utils: quantiles` |
| `really1d` | 556-564 | 9/9 | `Utils: Nest.really1d` |
| `flatten` | 571-575 | 5/5 | `Utils: Nest.flatten` |
| `flatlen` | 579-585 | 7/7 | `Utils: Nest.flatlen` |
| `isjagged` | 592-594 | 3/3 | `Utils: Nest.isjagged` |
| `isinteger` | 612-621 | 10/10 | `Helpers: isinteger` |
| `jshape` | 627-640 | 14/14 | `Helpers: Nest.jshapeAt`, `Helpers: Nest.jshapeList`, `Helpers: Nest.jshape` |
| `rem_cov` | 644-649 | 6/6 | `LinAlg: cholesky`, `LinAlg: remCov`, `RemCov: remCovAuto` |
| `run_if` | 653-659 | 7/7 | `Legend: runIf` |
| `run_if_notebook` | 663-664 | 2/2 | `Legend: runIfNotebook` |
| `run_if_script` | 668-669 | 2/2 | `Legend: runIfScript` |
| `spacing` | 673-698 | 26/26 | `RoundedSpacing: spacingFl`, `Spacing: scaleFlag`, `Spacing: spacing` |
| `stats` | 702-717 | 16/16 | `Text: statsAll` |
| `stats_str` | 746-790 | 45/45 | `Text: statsText`, `Text: StatsText.render` |
| `subdivide` | 813-824 | 12/12 | `RoundedSpacing: subdivideFl`, `RoundedSpacing: subdivideLogFl`, `Utils: subdivide` |
| `trapz_nd` | 829-848 | 20/20 | `Axes: trapzAxis`, `Axes: trapzLoop`, `Axes: trapzNdAxis`, `Grid: EdgesMatch`, `Grid: trapzAll`, `Grid: trapzNd` |
| `trapz_dens_to_mass` | 876-979 | 104/104 | `Axes: notAxis`, `Axes: trapzDensToMassAxis`, `Grid: EdgesMatch`, `Grid: corners`, `Grid: binWidth`, `Grid: trapzDensToMass`, `Grid: axisSet`, `GridArgs: SampleGrid.initForms`, `Rounded: mass1dFl`, `RoundedCdf: volumeFl`, `RoundedCdf: cornerList`, `RoundedCdf: massFl` |
| `_midpoints_1d` | 1010-1030 | 21/21 | `Grid: midAxis`, `RoundedSpacing: midpointsFl`, `Utils: midpoints1` |
| `_get_edges_1d` | 1050-1075 | 26/26 | `Dist: rawEdges1d`, `Parse: getEdges1d`, `RoundedEdges: getEdges1dFl` |
| `_guess_edges` | 1079-1140 | 62/62 | `Parse: guessNeff`, `Parse: reduceNeff`, `Parse: guessWidths`, `Parse: guessWidth`, `Parse: spanWidth`, `Parse: guessEdges`, `RoundedEdges: guessNeffFl`, `RoundedEdges: reduceNeffFl`, `RoundedEdges: guessWidthsFl`, `RoundedEdges: guessWidthFl`, `RoundedEdges: spanWidthFl`, `RoundedEdges: guessEdgesFl` |
| `_guess_str_format_from_range` | 1147-1162 | 16/16 | `Text: guessFormat` |
| `_prep_msg` | 1166-1176 | 0/11 | **not modelled** |
| `_python_environment` | 1182-1190 | 9/9 | `Legend: pythonEnvironment` |
| `_ndim` | 1194-1200 | 0/7 | **not modelled** |
| `_parse_extrema` | 1219-1274 | 56/56 | `Dist: parseEdgesParams`, `Parse: fillExtrema`, `Parse: parseExtremaList`, `Parse: parseExtrema`, `Parse: dataExtrema`, `Parse: parseExtremaOf` |
| `_random_data_1d_01` | 1283-1294 | 12/12 | `ExampleData: exampleBimodal`, `ExampleData: exampleDensity`, `ExampleData: exampleTruth`, `ExampleData: exampleBimodalFrom` |
| `_random_data_1d_02` | 1298-1309 | 12/12 | `ExampleData: exampleEdge`, `ExampleData: exampleEdgeFrom` |
| `_random_data_2d_01` | 1313-1334 | 22/22 | `ExampleData: exampleCov`, `ExampleData: sigma2`, `ExampleData: corr2`, `ExampleData: exampleScaled`, `ExampleData: exampleNoisy` |
| `_random_data_2d_02` | 1338-1357 | 20/20 | `ExampleData: exampleSorted` |
| `_random_data_2d_03` | 1361-1385 | 25/25 | `ExampleData: exampleCovary`, `ExampleData: examplePositive2` |
| `_random_data_3d_01` | 1389-1412 | 24/24 | `ExampleData: exampleCov`, `ExampleData: sigma3`, `ExampleData: corr3`, `ExampleData: exampleScaled`, `ExampleData: exampleAppended` |
| `_random_data_3d_02` | 1416-1438 | 23/23 | `ExampleData: exampleCov`, `ExampleData: sigma3`, `ExampleData: corr3`, `ExampleData: exampleScaled`, `ExampleData: exampleNoisy` |
| `_random_data_3d_03` | 1442-1466 | 25/25 | `ExampleData: exampleCovary`, `ExampleData: examplePositive3` |

## kalepy/plot.py

| function | lines | cited | model definitions |
|---|---|---|---|
| `Corner.__init__` | 139-266 | 128/128 | `Corner: Corner`, `Corner: Corner.new`, `Corner: cellOf`, `Corner: CornerData`, `Corner: cornerInit`, `CornerLabels: rowText`, `CornerLabels: columnText`, `CornerLabels: tickText`, `CornerLabels: panelText`, `CornerLabels: cornerText`, `CornerShared: CornerObj`, `CornerShared: CornerWorld.step`, `CornerTop: Corner.first` |
| `Corner.clean` | 289-314 | 25/26 | `Corner: plotInput`, `Corner: CornerMethod.set1d`, `CornerPlot: clean1dArgs`, `CornerPlot: clean2dArgs`, `CornerTop: Corner.first`, `Options: OptCall.ops` |
| `Corner.hist` | 337-362 | 26/26 | `Corner: histInput`, `CornerPlot: hist1dArgs`, `CornerPlot: hist2dArgs`, `CornerTop: Corner.first`, `Options: OptCall.ops`, `Options: OptMethod.ofData` |
| `Corner.plot` | 420-447 | 27/28 | `Corner: plotInput`, `Corner: CornerMethod.set1d`, `CornerPlot: plot1dArgs`, `CornerPlot: plot2dArgs`, `CornerTop: Corner.first`, `Options: OptCall.ops` |
| `Corner.plot_kde` | 505-572 | 68/68 | `Corner: cornerLimit`, `Corner: Corner.call`, `Corner: plotKdeInput`, `Corner: kwStep`, `CornerPlot: diagArgs`, `CornerPlot: panelEdges`, `CornerPlot: cornerPanels`, `CornerPlot: Corner.plotKde`, `CornerShared: LimitsObj.assign`, `CornerShared: CornerWorld.step`, `Options: OptCall.ops`, `Options: reserved1`, `Options: accepted2` |
| `Corner.plot_data` | 632-699 | 68/68 | `Corner: cornerLimit`, `Corner: Corner.call`, `Corner: plotDataInput`, `CornerPlot: diagArgs`, `CornerPlot: panelEdges`, `CornerPlot: cornerPanels`, `CornerPlot: Corner.drawData`, `CornerPlot: Corner.plotDataKde`, `CornerPlot: Corner.plotData`, `CornerShared: LimitsObj.assign`, `CornerShared: CornerWorld.step`, `Options: reserved1`, `Options: accepted2`, `Options: OptCall.options` |
| `Corner._data1d` | 705-711 | 7/7 | `CornerPlot: data1dArgs`, `Options: reserved1`, `Options: OptCall.options` |
| `Corner._data2d` | 717-724 | 8/8 | `CornerPlot: data2dArgs`, `Options: accepted2`, `Options: OptCall.options` |
| `Corner._kde1d` | 730-736 | 7/7 | `CornerPlot: kde1dArgs`, `Options: reserved1`, `Options: OptCall.options` |
| `Corner._kde2d` | 742-748 | 7/7 | `CornerPlot: kde2dArgs`, `Options: accepted2`, `Options: OptCall.options` |
| `Corner.legend` | 754-786 | 33/33 | `Corner: legendIndex`, `Legend: LegendCall`, `Legend: cornerLegend` |
| `Corner.target` | 789-853 | 65/65 | `Corner: target1d`, `Corner: target2d`, `Corner: Corner.target` |
| `corner` | 892-894 | 2/3 | `CornerPlot: cornerFunction`, `CornerTop: Corner.first` |
| `carpet` | 977-1058 | 82/82 | `Carpet: carpetScale`, `Carpet: carpetWeights`, `Carpet: carpetOrdinates`, `Carpet: carpetSize`, `Carpet: carpetSelect`, `Carpet: carpet`, `Plot: scatterPoints` |
| `confidence` | 1089-1126 | 38/38 | `Plot: confidenceGrid`, `Plot: confidenceLocs`, `Plot: confidence` |
| `contour` | 1191-1205 | 15/15 | `Hist2d: histogram2d`, `Hist2d: contour` |
| `dist1d` | 1273-1368 | 96/96 | `Dist1d: dist1dDensity`, `Dist1d: dist1dCurve`, `Dist1d: dist1dDraw`, `Dist1d: dist1d`, `Dist1d: dist1dData`, `Plot: dist1dConfidence`, `Plot: scatterPoints` |
| `dist2d` | 1477-1610 | 131/134 | `Contours: maskDenseArg`, `Contours: maskSource`, `Contours: maskRegion`, `Contours: drawnLines`, `Contours: dist2dFinish`, `Dist: plotRows`, `Dist: dataMedian`, `Dist: maskLevel`, `Dist: medianLines`, `Dist: kdeContour`, `Dist: dist2dDraw`, `Dist: dist2d`, `Dist: dist2dData`, `Helpers: contourRange`, `Hist2d: histogram2d`, `Plot: scatterPoints` |
| `_prep_hist` | 1615-1644 | 23/30 | `Plot: padStep`, `Plot: prepHist`, `Plot: zoomFactor`, `Plot: filterWidth` |
| `hist1d` | 1697-1711 | 15/15 | `Dist1d: hist1d` |
| `hist2d` | 1754-1765 | 12/12 | `Hist2d: histogram2d`, `Hist2d: hist2d` |
| `draw_hist1d` | 1776-1817 | 42/42 | `Plot: gapPairs`, `Plot: stepArrays`, `Plot: renormPts`, `Plot: renormStep`, `Plot: drawHist1d` |
| `draw_hist2d` | 1821-1830 | 10/10 | `Hist2d: drawHist2d` |
| `draw_contour2d` | 1836-1882 | 47/47 | `Contours: axContour`, `Hist2d: drawContour2d` |
| `draw_scatter` | 1892-1902 | 11/11 | `Plot: drawScatter` |
| `_confidence` | 1911-1911 | 0/1 | **not modelled** |
| `_dist1d` | 1916-1916 | 0/1 | **not modelled** |
| `_dist2d` | 1921-1921 | 0/1 | **not modelled** |
| `_carpet` | 1926-1926 | 0/1 | **not modelled** |
| `_set_corner_axes_extrema` | 1932-1966 | 35/35 | `Corner: setExtrema` |
| `_figax` | 1973-2002 | 30/30 | `Helpers: figax` |
| `_match_edges_to_hist` | 2008-2023 | 16/16 | `Plot: matchEdges` |
| `_parse_kde_data` | 2029-2048 | 20/20 | `Corner: parseKdeData` |
| `_parse_origin` | 2052-2070 | 19/19 | `Corner: parseOrigin` |
| `_dfm_levels` | 2074-2100 | 27/27 | `Plot: dfmLevel`, `Plot: dfmLevelsOf`, `Plot: dfmLevels` |
| `_default_quantiles` | 2106-2115 | 10/10 | `Plot: defaultQuantiles` |
| `_pad_hist` | 2121-2129 | 9/9 | `Plot: padEdges`, `Plot: padHist` |
| `_scatter_alpha` | 2135-2145 | 11/11 | `Plot: scatterAlpha` |
| `_get_outline_effects` | 2149-2153 | 0/5 | **not modelled** |
| `_parse_color_cmap` | 2159-2174 | 16/16 | `Helpers: parseColorCmap` |
| `_get_next_color` | 2178-2178 | 0/1 | **not modelled** |
| `_color_to_cmap` | 2184-2209 | 26/26 | `Colors: rgbToHsv`, `Colors: hsvToRgb`, `Colors: colorDist`, `Colors: colorToCmap` |
| `_cut_colormap` | 2215-2218 | 4/4 | `Helpers: cutColormap` |
| `_scatter_limit` | 2222-2236 | 15/15 | `Plot: scatterLimit` |
| `_draw_colorbar_contours` | 2240-2266 | 27/27 | `Helpers: barLineColors`, `Helpers: drawColorbarContours` |
| `_invert_color` | 2270-2274 | 5/5 | `Colors: invertColor` |
| `nbshow` | 2278-2278 | 1/1 | `Legend: nbshow` |
