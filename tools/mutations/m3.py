import json
L=[]
def m(prop,file,d,old,new,claim,**k):
    L.append(dict(id='m3-%02d'%(len(L)+1),prop=prop,file='Verif/'+file,**{'def':d},old=old,new=new,claim=claim,**k))
K='Infer/Likelihood.lean'; F='Infer/Fit.lean'; B='Infer/Batch.lean'; V='Infer/Level.lean'; P='Infer/Params.lean'; S='Infer/Sim.lean'; R='Plot/Residual.lean'; C='Util/Config.lean'; N='Util/Namespace.lean'; Q='Util/Progress.lean'
m('C23',K,'pgstatBackground','let f := a * variance * n + e * s','let f := a * variance * n - e * s','profile background wrong')
m('C23',K,'pgstatBackground','(if 0 < n then (c + d) / (2 * a) else e) else 0','(c + d) / (2 * a) else 0','zero-count branch dropped')
m('C23',K,'pgstatBackground','let c := a * e - s','let c := a * e + s','sign error')
m('C22',K,'wstatBackground','if nOn = 0 then nOff / (1 + a)\n  else if','if','zero on-count branch dropped')
m('C22',K,'wstatBackground','if nOn = 0 then nOff / (1 + a)','if nOn = 0 then nOff','1+a dropped')
m('C22',K,'wstatBackground','if s ≤ a / (a + 1) * nOn then','if a / (a + 1) * nOn ≤ s then','branch inverted')
m('C22',K,'wstatBackground','(c + d) / (2 * a * (a + 1))','(c - d) / (2 * a * (a + 1))','wrong root')
m('C25',K,'normalLogProb','(-1 / 2) * v * v','(-1) * v * v','chi2 doubled')
m('C24',K,'poissonLogProb','let gof := xlogy value value - value','let gof := xlogy value value','gof term wrong')
m('C24',K,'poissonLogProb','min (logp - gof) 0','logp','saturated term not subtracted')
m('C24',K,'poissonLogProbSparse','(if 0 < value then','(if 1 < value then','sparse branch skips single counts')
m('C25',K,'FitData.sourceRate','* nth d.areaScale j','','area scale forgotten')
m('C25',K,'FitData.sourceCounts','(d.sourceRate unfold j * d.exposure)','(d.sourceRate unfold j)','exposure forgotten')
m('C25',K,'likelihood','normalLogProb (nth d.netCounts j) (nth μ j) (nth d.netErrors j)','normalLogProb (nth d.specCounts j) (nth μ j) (nth d.netErrors j)','chi2 on total counts')
m('C25',K,'likelihood','+ nth b.ratio j * nth b.counts j)','+ nth b.counts j)','pstat background not scaled')
m('C25',K,'likelihood','let off := js.map fun j => normalLogProb','let off := js.map fun j => poissonLogProb (nth b.counts j) (nth bm j) |> fun x => x + 0 * normalLogProb','pgstat off term Poisson')
m('C25',K,'likelihood','.ok ⟨d.specCounts, μ, some (b.counts, bm, off), on, js.map fun j => nth on j + nth off j⟩\n  | .wstat','.ok ⟨d.specCounts, μ, some (b.counts, bm, off), on, on⟩\n  | .wstat','pgstat off term not added')
m('C25',K,'likelihood','let μ := js.map fun j => d.sourceCounts unfold j + nth b.ratio j * nth bm j\n    let on := js.map fun j => poissonLogProb (nth d.specCounts j) (nth μ j)\n    let off := js.map fun j => poissonLogProb','let μ := js.map fun j => d.sourceCounts unfold j + nth bm j\n    let on := js.map fun j => poissonLogProb (nth d.specCounts j) (nth μ j)\n    let off := js.map fun j => poissonLogProb','wstat background unscaled')
m('C25',K,'likelihood','| _, none => .error .assertionError','| _, none => .ok ⟨[], [], none, [], []⟩','missing background ignored')
m('C25',K,'getLoglike','⟨point, point.map List.sum, channels, channels.sum⟩','⟨point, point.map List.sum, channels, (point.headD []).sum⟩','total only over first dataset')
m('C25',K,'deviance','-2 * l.total⟩','2 * l.total⟩','sign of the total deviance')
m('C25',K,'fitSites','likelihood x.1 x.2.1 x.2.2','likelihood .chi2 x.2.1 x.2.2','statistic ignored')
m('C43',F,'defaultStat','(if d.backPoisson then .wstat else .pgstat)','.wstat','wstat for Gaussian background')
m('C43',F,'defaultStat','else .cstat)','else .pstat)','pstat without background')
m('C43',F,'checkStat','if !d.specPoisson && s ≠ .chi2 then .error .valueError\n  else match','match','Poisson statistic for Gaussian data')
m('C43',F,'checkStat','| .chi2 => if anyZero d.netErrors then .error .valueError else .ok ()','| .chi2 => .ok ()','zero errors accepted')
m('C43',F,'checkStat','| .cstat => if d.back.isSome then','| .cstat => if d.back.isNone then','cstat condition inverted')
m('C43',F,'checkStat','| some b => if anyZero b.errors then .error .valueError else .ok ()','| some _ => .ok ()','zero background errors accepted')
m('C44',F,'broadcast','if xs.length = 1 then .ok (List.replicate nd xs).flatten\n  else','','single model not broadcast')
m('C44',F,'broadcast','else if xs.length ≠ nd then .error .valueError\n  else .ok xs','else .ok (xs.take nd)','surplus models silently dropped')
m('C44',F,'OneOrMany.toList','| .many [] => .error .valueError\n  | .many (x :: xs) => .ok (x :: xs)','| .many xs => .ok xs','empty list accepted')
m('C44',F,'parseInput','raiseIf (decide ((dataList.map (·.1)).dedup.length ≠ dataList.length)) .valueError','raiseIf false .valueError','duplicate names accepted')
m('C44',F,'parseInput','raiseIf (!(modelList.all isAdd)) .typeError','raiseIf (!(modelList.any isAdd)) .typeError','one additive model suffices')
m('C44',F,'parseInput','(dataList.zip stats).mapM fun x => checkStat x.1.2 x.2','(dataList.take 1 |>.zip stats).mapM fun x => checkStat x.1.2 x.2','only first dataset checked')
m('C44',F,'statList','| none => .ok (data.map fun d => defaultStat d.2)','| none => .ok (data.map fun _ => .chi2)','default chi2')
m('C44',F,'readStat','if s = "wstat" then some .wstat','if s = "wstat" then some .pgstat','wstat read as pgstat')
m('C45',F,'dof','(ndataTotal data : Int) - nparam','(ndataTotal data : Int) - nparam - 1','dof off by one')
m('C45',F,'bic','k * Real.log n','k * Real.log k','log of the wrong number')
m('C45',F,'aic','((n : ℝ) - k - 1)))','((n : ℝ) - k + 1)))','correction term wrong')
m('C46',B,'fitOnce','out.set i (fit d x)','out.set (i + 1) (fit d x)','result stored in wrong row')
m('C46',B,'foriLoop','(List.range n).foldl','(List.range (n - 1)).foldl','last fit skipped')
m('C46',B,'reshape','(xs.drop (b * (xs.length / p)))','(xs.drop (b * p))','wrong stride')
m('C46',B,'fitInParallel','(initB.getD b [])','(initB.getD 0 [])','all devices use the first initial block')
m('C46',B,'batchFit','if parallel then fitInParallel','if !parallel then fitInParallel','flag inverted (same results)')
m('C46',B,'runSize','n + (p - n % p)','n + p','run size over-extended')
m('C46',B,'runSize','n + (p - n % p)','n - n % p','run size truncated below request')
m('C49',B,'pValue','decide (obs ≤ x)','decide (obs < x)','ties not counted')
m('C49',B,'pValue','decide (obs ≤ x)','decide (x ≤ obs)','wrong tail')
m('C46',B,'boot','let good := out.filter valid\n  return ⟨good, Infer.pValue obs (good.map dev), n, good.length⟩\n\n/--','let good := out.filter valid\n  return ⟨good, Infer.pValue obs (out.map dev), n, good.length⟩\n\n/--','p-value includes invalid fits')
m('C46',B,'ppc','batchFit fit data params','batchFit fit data params.reverse','initial values paired with wrong dataset')
m('C48',V,'toUnitCl','if cl ≤ 0 then','if cl < 0 then','zero level accepted')
m('C48',V,'toUnitCl','else if cl < 1 then .ok cl','else if cl ≤ 1 then .ok cl','1 treated as probability')
m('C48',V,'toUnitCl','1 - 2 * normSf cl','1 - normSf cl','one-sided level')
m('C48',V,'quantile','let h := q * ((n : ℝ) - 1)','let h := q * (n : ℝ)','wrong position')
m('C48',V,'quantile','(hi - lo) * (h - i)','(hi - lo) * (h - i) * 2','extrapolates')
m('C48',V,'bootInterval','(0.5 - 0.5 * cl)','(0.5 - 0.4 * cl)','lower tail too large')
m('C48',V,'etiInterval','let hi ← quantile samples (0.5 + cl / 2)','let hi ← quantile samples (0.5 + cl)','upper tail wrong')
m('C51',P,'checkParams','if ∃ p ∈ params, p ∈ h.withRole .fixed then throw PyErr.runtimeError\n','','fixed parameters accepted')
m('C51',P,'checkParams','sortByIndex h.all params','pure params','order of the request kept')
m('C51',P,'checkParams','pure ps.dedup else','pure ps else','duplicates kept')
m('C51',P,'checkParams','| .none => pure h.interest.dedup','| .none => pure h.all.dedup','default is all parameters')
m('C50',P,'dictSet','if x.1 = k then (k, v) else x','x','update of an existing key lost')
m('C50',P,'arrToDic','dictOf (free.zip arr)','dictOf (free.zip arr.reverse)','values assigned in reverse')
m('C50',P,'arrToDic','if arr.length = free.length then .ok (dictOf (free.zip arr)) else .error .assertionError','.ok (dictOf (free.zip arr))','length unchecked')
m('C50',P,'freeNames','sortByIndex paramsNames (','Except.ok (','free names unsorted')
m('C52',S,'samplingDist','if stat.specNormal then SimDist.norm d.specErrors else .poisson','if stat.specNormal then SimDist.norm d.netErrors else .poisson','(fix: the refutation must fail)')
m('C52',S,'samplingDist','if stat.backNormal then SimDist.norm','if stat.specNormal then SimDist.norm','pgstat background simulated Poisson')
m('C52',S,'obsCounts','if stat.specNormal then d.netCounts else d.specCounts','d.specCounts','observed counts for chi2')
m('C56',S,'netSpectrum','nth on j - ratio * nth','nth on j + ratio * nth','background added')
m('C56',S,'modelSpectrum','d.sourceRate unfold j / nth width j','d.sourceRate unfold j * nth width j','width multiplied')
m('C53',R,'poissonDeviance','2 * (xlogy k (k / lam) - (k - lam))','2 * (xlogy k (k / lam) + (k - lam))','sign')
m('C53',R,'devResPoisson','signOf (k ≥ lam)','signOf (k ≤ lam)','sign inverted')
m('C53',R,'withSign','| some ε => ε * |r|','| some _ => r','sign ignored')
m('C53',R,'devResPoissonNormal','((v - mu) / sigma) * ((v - mu) / sigma)','((v - mu) / sigma)','square forgotten')
m('C53',R,'signMle','ceData d width j ≥ modelSpectrum','ceData d width j ≤ modelSpectrum','sign inverted')
m('C53',R,'devResiduals','Real.sqrt (-2 * nth sites.loglike j)','Real.sqrt (-2 * nth sites.onLoglike j)','background term forgotten')
m('C53',R,'pearsonResiduals','Real.sqrt (r * r + rb * rb)','Real.sqrt (r * r - rb * rb)','Pearson combination')
m('C57',R,'pitPoisson','(poissonCdf (k - 1) lam, poissonCdf k lam)','(poissonCdf k lam, poissonCdf (k - 1) lam)','order swapped')
m('C57',R,'fracBelow','decide (x ≤ obs)','decide (obs ≤ x)','wrong side')
m('C57',R,'limitedResidual','(r, decide (p = 1), decide (p = 0))','(r, decide (p = 0), decide (p = 1))','flags swapped')
m('C57',R,'limitedResidual','let r := if p = 0 then normPpf (1 / n) else r\n  let r := if p = 1 then normPpf (1 - 1 / n) else r\n  (r, decide (p = 1)','let r := if p = 0 then normPpf (1 / n) else r\n  (r, decide (p = 1)','upper saturation unlimited')
m('C57',R,'pitPoissonPoisson','max (k1 - 1 - ratio * k2) (k1 - ratio * (k2 + 1))','max (k1 + 1 - ratio * k2) (k1 - ratio * (k2 + 1))','lower above upper')
m('C54',C,'getParallelNumber','if n ≤ 0 then .error','if n < 0 then .error','zero accepted')
m('C54',C,'getParallelNumber','else if (nMax : Int) < n then .ok nMax\n    else','else','too many devices')
m('C54',C,'coresUsed','(total : Int) - 1 else n','(total : Int) + 1 else n','too many cores')
m('C54',C,'stripFlagAux','else stripFlagAux fuel (rest.dropWhile fun x => !isSpace x)','else rest.dropWhile fun x => !isSpace x','only first occurrence removed')
m('C54',C,'setCpuCores','words (stripFlag xlaFlags)','words xlaFlags','old flag kept')
m('C34',N,'suffixLoop','(counter name + 1) :: suffixLoop','(counter name) :: suffixLoop','suffix repeats')
m('C34',N,'suffixLoop','(Function.update counter name (counter name + 1)) rest','counter rest','counter not advanced')
m('C34',N,'suffix','| .prime, n => String.ofList (List.replicate (n - 1)','| .prime, n => String.ofList (List.replicate (n - 2)','primes repeat')
m('C34',N,'suffix','| .number, n => if n > 1 then','| .number, n => if n > 2 then','second occurrence unsuffixed')
m('C34',N,'fitNames','(List.zipWith (addSuffix true) cname num) dsuf','(List.zipWith (addSuffix true) cname num) (dsuf.map fun _ => "")','data suffix lost')
m('C47',Q,'printRate','max 1 (nevalSingle / updateRate)','(nevalSingle / updateRate)','rate can be zero')
m('C47',Q,'iterOps','compileUpdate atomic (m % pr)','compileUpdate atomic pr','remainder miscounted')
m('C47',Q,'iterOps','if iterNum % pr = 0 then','if iterNum % pr = 1 then','updates at wrong iterations')
m('C47',Q,'iterOps','++ [.incr, .check] else []','++ [.check] else []','finished devices not counted')
m('C47',Q,'runOp','closed || (counter = ncores)','closed || (counter = 1)','bar closed by first device')
m('C47',Q,'startProgress','if neval % ncores ≠ 0 then .error .valueError\n  else','','indivisible evaluations accepted')
json.dump(L,open('/tmp/mut/m3.json','w'),indent=1); print(len(L))
