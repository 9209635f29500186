import json
L=[]
def m(prop,file,d,old,new,claim,**k):
    L.append(dict(id='m10-%02d'%(len(L)+1),prop=prop,file='Verif/'+file,**{'def':d},old=old,new=new,claim=claim,**k))
F='Models/Catalogue.lean'
m('C133',F,'Cls.config','⟨"alpha", -1, -1.99, 10⟩','⟨"alpha", -1, -2.5, 10⟩','2 + alpha may vanish within the bounds')
m('C133',F,'Cls.config','| .blackbody => [⟨"kT", 3, 1e-4, 200⟩','| .blackbody => [⟨"kT", 3, 0, 200⟩','temperature zero allowed')
m('C133',F,'Cls.config','⟨"rho", 1, 1e-2, 1e2⟩','⟨"rho", 1, 0, 1e2⟩','smoothness zero allowed')
m('C133',F,'ConvCls.config','| .zaShift => [⟨"z", 0, -0.999, 15⟩]','| .zaShift => [⟨"z", 0, -1.5, 15⟩]','redshift below -1 allowed')
m('C133',F,'ConvCls.config','| .vmShift => [⟨"v", 0, -1e4, 1e4⟩]','| .vmShift => [⟨"v", 0, -1e6, 1e4⟩]','velocity beyond that of light allowed')
m('C133',F,'continuum','some (exp (-p "D" * y))','some (exp (p "D" * y))','edge amplifies')
m('C133',F,'continuum','let x ← qdiv (-p "Ec") e','let x ← qdiv (p "Ec") e','absorption amplifies')
m('C133',F,'continuum','let x ← qdiv (p "Ec" - e) (p "Ef")','let x ← qdiv (e - p "Ec") (p "Ef")','cutoff grows')
m('C133',F,'continuum','let d ← qdiv (-p "tau") (sqrt (2 * π) * p "sigma")','let d ← qdiv (p "tau") (sqrt (2 * π) * p "sigma")','absorption line emits')
m('C133',F,'continuum','some (1 + p "A" * exp (-p "f" * e)) else some 1','some (1 - p "A" * exp (-p "f" * e)) else some 1','factor may be negative')
m('C133',F,'continuum.photon','some (exp (-p "nH" * exp','some (exp (p "nH" * exp','photon absorption amplifies')
m('C133',F,'blackTail','else qdiv num (exp x - 1)','else qdiv num (1 - exp x)','negative spectrum')
m('C133',F,'blackTail','if x ≤ 1e-4 then some low','if x ≤ -1 then some low','no small-argument branch')
m('C133',F,'binValue','let n ← qdiv (2 * p "K") (π + 2 * arctan d)','let n ← qdiv (2 * p "K") (π - 2 * arctan d)','normalisation of the line')
m('C133',F,'binValue','some (n * (arctan y - arctan x))','some (n * (arctan x - arctan y))','negative line')
m('C136',F,'quadBin','some ((if add then (b - a) / 6 else 1 / 6) * (x + 4 * m + y))','some ((if add then (b - a) / 6 else 1 / 6) * (x + 2 * m + y))','Simpson weights')
m('C136',F,'quadBin','(if add then 0.5 * (b - a) else 0.5)','(if add then 0.5 * (b - a) else 0.5 * (b - a))','multiplicative value not an average')
m('C136',F,'quadBin','(if add then (b - a) / 6 else 1 / 6)','(if add then 1 / 6 else (b - a) / 6)','additive and multiplicative swapped')
m('C136',F,'continuum','| .edge, e =>\n    if e ≥ p "Ec" then do','| .edge, e =>\n    if e ≤ p "Ec" then do','edge on the wrong side')
m('C136',F,'continuum','| .highECut, e =>\n    if e ≥ p "Ec" then do','| .highECut, e =>\n    if e ≤ p "Ec" then do','cutoff below the cutoff energy')
m('C132',F,'continuum','| .compt, e => do\n    let c ← qdiv (p "alpha" - 2) (p "Ep")','| .compt, e => do\n    let c ← qdiv (2 - p "alpha") (p "Ep")','exponent of the Comptonised model')
F='Infer/FitFlux.lean'
m('C134',F,'restGrid','e / (1 + z)','e * (1 + z)','redshift the wrong way')
m('C134',F,'luminFactor','4 * π * dl z ^ 2','4 * π * dl z','distance not squared')
m('C134',F,'eiso','luminFactor dl z * (duration / (1 + z))','luminFactor dl z * (duration * (1 + z))','time dilation the wrong way')
m('C134',F,'eiso','luminFactor dl z * (duration / (1 + z))','luminFactor dl z * duration','no time dilation')
m('C134',F,'fluxOn','if energy then ene model egrid else ne model egrid','if energy then ne model egrid else ene model egrid','photon and energy flux swapped')
m('C134',F,'fluxOn','v * d) f (diff egrid)','v + d) f (diff egrid)','not an integral')
m('C134',F,'gridOf','if b.log then geomspace','if !b.log then geomspace','grid kind swapped')
m('C134',F,'lumin','true (restGrid b z)\n\n/-- `MLEResult.eiso`','true (gridOf b)\n\n/-- `MLEResult.eiso`','rest-frame band used in the observer frame')
m('C134',F,'flux','{ E with factor := 1 }','{ E with factor := 2 }','factor in flux')
F='Infer/Posterior.lean'
m('C135',F,'siteLogProb','| some o => o.2.2.sum | none => 0','| some _ => 0 | none => 0','background site left out')
m('C135',F,'siteLogProb','| some o => o.2.2.sum','| some o => 2 * o.2.2.sum','background counted twice')
m('C135',F,'FreeParam.logProb','- Real.log x else','else','log-uniform prior without Jacobian')
m('C135',F,'FreeParam.logProb','-Real.log (p.hi - p.lo)','Real.log (p.hi - p.lo)','sign of the prior density')
m('C135',F,'FreeParam.logProb','if p.log then','if !p.log then','priors swapped')
m('C135',F,'logDensity','(sites.map siteLogProb).sum','2 * (sites.map siteLogProb).sum','likelihood squared')
F='Data/DropZeros.lean'
m('C122',F,'joinRun','1 < y - x','2 < y - x','runs joined across a gap')
m('C122',F,'ends','(s.contains 0 || s.contains last)','s.contains 0','last rows not trimmed')
m('C122',F,'dropZeros','let last := grid.length - 2','let last := grid.length - 1','last row index')
m('C122',F,'dropZeros','if i = 0 then grid.tail else if i = last then grid.dropLast','if i = 0 then grid.dropLast else if i = last then grid.tail','wrong end trimmed')
m('C122',F,'dropZeros','let ehi := keepFrom mask 0 grid.tail','let ehi := keepFrom mask 0 grid.dropLast','upper edges lost')
m('C122',F,'isZeroRow','∀ x ∈ row, x = 0','∃ x ∈ row, x = 0','row with one zero dropped')
F='Data/Alias.lean'
m('C137',F,'step','{ w with heap := p.1 ++ [w.respVals o.resp .photons], fits := w.fits ++ [⟨p.2, p.1.length⟩] }','{ w with heap := p.1 ++ [w.respVals o.resp .photons], fits := w.fits ++ [⟨o.refs, p.1.length⟩] }','the fit shares the arrays of the data')
m('C137',F,'step','{ w with heap := p.1, specs := w.specs ++ [p.2] }','{ w with heap := p.1, specs := w.specs ++ [args] }','the spectrum keeps the arrays given')
m('C137',F,'regroup','if o.back = none ∧ f = .netCounts then p.2 .specCounts','if f = .netCounts then p.2 .specCounts','net counts alias the counts although there is a background')
m('C137',F,'rerange','regroup C w1 d { o with erange := w.heap.length } o.grouping','w1','grouped data not recomputed for the new ranges')
m('C137',F,'regroup','{ o with grouping := g, refs := refs }','{ o with grouping := g }','grouped arrays not replaced')
m('C137',F,'reset','h.set g (1 :: (content h g).tail)','h.set g (0 :: (content h g).tail)','first flag reset to zero')
m('C137',F,'step','regroup C { w with heap := w.heap ++ [v] } d o w.heap.length','regroup C { w with heap := w.heap ++ [v] } d o o.grouping','flags of the method not used')
F='Models/Density.lean'
m('C116',F,'checked','if !m.add then .error .typeError','if false then .error .typeError','spectrum of a multiplicative model')
m('C116',F,'checked','(q.1, f q.2)','(q.1, f m.fn)','total for every component')
m('C116',F,'eeneOf','eene f egrid','ene f egrid','nu F nu is F nu')
m('C116',F,'fluxOf','flux f emin emax energy n lg','flux f emax emin energy n lg','band reversed')
F='Infer/Walk.lean'
m('C117',F,'Move.direction','(2 * mu\') •','mu\' •','factor two of the direction')
m('C117',F,'Move.direction','if m.tune then mu else m.mu0','if m.tune then m.mu0 else mu','tuned scale not used')
m('C117',F,'Move.pairs','if n ≠ k then pairsOf n else ps','if n = k then pairsOf n else ps','stale pairs')
m('C117',F,'pairsOf','j ≠ i).map','j = i).map','walker paired with itself')
m('C117',F,'nanToNum','| .nan => .negInf','| .nan => .num 0','NaN accepted')
m('C117',F,'starts','state (seed0 + (i + 1))','state seed0','all samplers have the same seed')
F='Infer/Likelihood.lean'
m('C140',F,'FitData.sourceCounts','d.sourceRate unfold j * d.exposure)','d.sourceRate unfold j)','exposure missing')
m('C138',F,'likelihood','+ nth b.ratio j * nth b.counts j)','+ nth b.counts j)','background not scaled in pstat')
m('C142',F,'FitData.sourceRate','* nth d.areaScale j','* nth d.areaScale 0','area scale of the first channel')
F='Infer/Batch.lean'
m('C143',F,'pValue','decide (obs ≤ x)','decide (x ≤ obs)','wrong tail')
m('C143',F,'pValue','decide (obs ≤ x)','decide (obs < x)','ties')
m('C143',F,'pValue','/ (sim.length : ℝ))','/ ((sim.length : ℝ) + 1))','divisor')
F='Data/Group.lean'
m('C142',F,'Obs.segResults','o.runMethod m scale (d.slice mask)','o.runMethod m scale d','method sees all channels')
m('C142',F,'Segment.slice','backCounts := applyMask mask d.backCounts','backCounts := d.backCounts','background not sliced')
m('C142',F,'Obs.preData','let (sc, se) ← o.spec.group pre (some o.good)','let (sc, se) ← o.spec.group pre none','bad channels counted')
F='Infer/Waic.lean'
m('C118',F,'variance','avg (xs.map fun x => (x - avg xs) ^ 2)','(xs.map fun x => (x - avg xs) ^ 2).sum','variance not divided')
m('C118',F,'waicRows','-2 * (logMeanExp (column rows i) - variance (column rows i))','-2 * (logMeanExp (column rows i) + variance (column rows i))','penalty sign')
m('C118',F,'logMeanExp','(xs.map Real.exp).sum / xs.length','(xs.map Real.exp).sum','sum instead of mean')
F='Infer/Tables.lean'
m('C128',F,'excluded','| .maxLike => ["Prior"]','| .maxLike => ["Bound"]','wrong column')
m('C128',F,'statTable','(n : ℤ) - nparam','(n : ℤ) + nparam','degrees of freedom')
m('C128',F,'ndata','dictSet d "total" ((d.map (·.2)).sum)','dictSet d "total" d.length','number of data sets instead of channels')
m('C128',F,'paramTable','f.short v.1, f.short v.2','f.short v.2, f.short v.1','value and error swapped')
F='Plot/ErrorBars.lean'
m('C121',F,'wstatErrors','(getDelta uplim) 1','1 (getDelta uplim)','levels swapped')
m('C121',F,'wstatErrors','upper := s + Real.exp up','upper := Real.exp up','upper end relative to zero')
m('C121',F,'wstatErrors','let s := max (nOn - a * nOff) 0','let s := max (nOn - nOff) 0','background not scaled')
F='Plot/QuantRes.lean'
m('C113',F,'quantPoisson','(poissonSf k lam) (poissonSf (k - 1) lam) u','(poissonSf k lam) (poissonSf (k + 1) lam) u','upper tail interval')
m('C113',F,'quantTail','if k < lam then','if k > lam then','tails swapped')
m('C113',F,'quantMle','(!random) random u\'','random random u\'','sign kept for random residuals')
json.dump(L,open('/tmp/mut/m10.json','w'),ensure_ascii=False,indent=1); print(len(L))
