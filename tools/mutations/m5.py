import json
L=[]
def m(prop,file,d,old,new,claim,**k):
    L.append(dict(id='m5-%02d'%(len(L)+1),prop=prop,file='Verif/'+file,**{'def':d},old=old,new=new,claim=claim,**k))
F='Plot/LinLog.lean'
m('C67',F,'mkLinLog','if base ≤ 1 then','if base < 1 then','base 1 accepted')
m('C67',F,'mkLinLog','else if thresh ≤ 0 then','else if thresh < 0 then','zero threshold accepted')
m('C67',F,'LinLog.adj','s.scale / (1 - 1 / s.base)','s.scale','lin_scale not adjusted')
m('C67',F,'LinLog.transform','if v > s.thresh then s.thresh * (s.adj','if v ≥ s.thresh * 2 then s.thresh * (s.adj','wrong switch point')
m('C67',F,'LinLog.transform','Real.log (v / s.thresh) / Real.log s.base','Real.log v / Real.log s.base','not normalised by threshold')
m('C67',F,'LinLog.inverse','if v > s.thresh * s.adj then','if v > s.thresh then','inverse switches at lin_thresh instead of the transformed threshold')
m('C67',F,'LinLog.inverse','else v / s.adj','else v * s.adj','inverse multiplies')
m('C67',F,'getScale','.ok (-numerator / denominator)','.ok (numerator / denominator)','sign of the scale')
m('C67',F,'getScale','base * (f - 1) * (thresh - vmin)','base * (f - 1) * thresh','vmin forgotten')
m('C67',F,'setLinFrac','0 < f ∧ f ≤ 1 / 2','0 ≤ f ∧ f ≤ 1 / 2','zero fraction accepted')
m('C67',F,'tickValues','x > max lo thresh','x > lo','log ticks below the threshold')
m('C67',F,'tickValues','x < min thresh hi','x < hi','linear ticks above the threshold')
F='Plot/Smooth.lean'
m('C68',F,'kernelWeight','Real.exp (-(1 / 2) *','Real.exp (-1 *','wrong kernel width')
m('C68',F,'smoothAt','some (dot / ws.sum)','some dot','weights not normalised')
m('C68',F,'smoothAt','if ws.sum < thresh then none','if thresh < ws.sum then none','threshold test inverted')
m('C68',F,'defaultNullThresh','683 / 1000','6 / 10','default threshold')
m('C69',F,'hexVal',"c.toNat - 87","c.toNat - 86",'hex digits read wrong')
m('C69',F,'clipChannel','max 0 (min v 255)','max 0 (min v 256)','channel may reach 256')
m('C69',F,'hex2','[hexDigit (n / 16), hexDigit (n % 16)]','[hexDigit (n % 16), hexDigit (n / 16)]','digits swapped')
m('C69',F,'scaleColor','++ hex2 (clipChannel (g * factor)) ++\n              hex2 (clipChannel (b * factor))','++ hex2 (clipChannel (b * factor)) ++\n              hex2 (clipChannel (g * factor))','green and blue swapped')
m('C69',F,'colorGradient','(geomspace fmax fmin n)','(geomspace fmin fmax n)','gradient runs dark to light')
F='Util/FiniteDiff.lean'
m('C70',F,'fdMagnitude','if p = 0 then 1 else |p|','|p|','zero step at zero parameter')
m('C70',F,'fdDeriv','(f (Function.update p i (p i + h)) - f (Function.update p i (p i - h))) / (2 * h)','(f (Function.update p i (p i + h)) - f (Function.update p i (p i - h))) / h','factor two')
m('C70',F,'fdDeriv','(f (Function.update p i (p i + h)) - f p) / h','(f p - f (Function.update p i (p i + h))) / h','sign of forward difference')
m('C70',F,'fdjvp','some ti => ti * fdDeriv m eps f p i','some _ => fdDeriv m eps f p i','tangent ignored')
m('C70',F,'parseMethod','| none => .ok .central','| none => .ok .forward','default method')
m('C70',F,'PyComp.step','| some _ => c\n','| some _ => { c with compiled := some c.method }\n','eval recompiles (repair of the finding: the refuted theorem must fail)')
F='Infer/NestedPrior.lean'
m('C71',F,'Prior.fromCube','lo + q * (hi - lo)','lo + q * hi','uniform not mapped to its range')
m('C71',F,'Prior.logUniform','[Real.exp]','[]','log uniform not exponentiated')
m('C71',F,'Prior.fromCube','if q < p then 1 else 0','if q < p then 0 else 1','Bernoulli inverted')
m('C71',F,'Prior.fromCube','fun c => c < q','fun c => q < c','categorical inverted')
m('C71',F,'defaultPrior','if log then Prior.logUniform lo hi else .uniform lo hi','.uniform lo hi','log ignored')
m('C71',F,'nestedLogLike','logL (paramsFromCube ds q)','logL q','likelihood at the cube point')
m('C71',F,'unravelCoord','| .int => (⌊q⌋ : ℝ)','| .int => q','no truncation (repair: refuted theorem must fail)')
F='Infer/Ensemble.lean'
m('C72',F,'mergeWalkers','draws.filterMap (fun row => row[w]?)','draws.filterMap (fun row => row[0]?)','first walker repeated')
m('C72',F,'samplerMessages','[.warmup] ++ List.replicate warmup .update ++ [.sample] ++ List.replicate steps .update ++ [.finish]','[.warmup] ++ List.replicate warmup .update ++ [.sample] ++ List.replicate steps .update','no finish message')
m('C72',F,'listen','| .finish => listen n (finished + 1) bars rest','| .finish => listen n n bars rest','stops at the first finish')
m('C72',F,'listen','Function.update bars i (bars i + 1)','Function.update bars 0 (bars 0 + 1)','all updates on bar 0')
m('C72',F,'startStates','if ss.length ≠ nParallel then','if ss.length < nParallel then','too many states accepted')
m('C72',F,'startStates','else .ok (ss, 0)','else .ok (ss, warmup)','warm-up repeated when states are given')
m('C72',F,'samplerSeeds','seed0 + (i + 1)','seed0 + i','jitter seed reused')
m('C72',F,'indices','(indices ds).map (i :: ·)','(indices ds).map (· ++ [i])','indices in wrong order')
m('C72',F,'runStartMethod','else if old ≠ "" then old else now','else now','start method not restored')
F='Infer/Profile.lean'
m('C73',F,'jointLoss','D θ + ((g θ / x0 - 1) * (g θ / x0 - 1)) / rtol','D θ + ((g θ / x0 - 1) * (g θ / x0 - 1)) * rtol','penalty weight inverted')
m('C73',F,'jointLoss','((g θ / x0 - 1) * (g θ / x0 - 1))','(g θ / x0 - 1)','penalty not squared')
m('C73',F,'rtolMax','min 0.01 (min (0.01 * relErr) (100 * rtol))','max 0.01 (min (0.01 * relErr) (100 * rtol))','tolerance not capped')
m('C73',F,'rtolSearch','.getD rtol\n    else rtol','.getD 1\n    else rtol','fallback tolerance')
m('C73',F,'checkRtol','let d := keys.map fun k => (k, r)\n    if d.any (fun e => decide (0.01 < e.2))','let d := keys.map fun k => (k, r)\n    if d.any (fun e => decide (0.1 < e.2))','tolerance 0.05 accepted')
m('C73',F,'checkRtol','(k, 1e-6)','(k, 1e-2)','default tolerance')
m('C73',F,'shifted','if k ∈ names then u k + e k else u k','u k + e k','unselected parameters moved')
m('C73',F,'ciFree','(fun k => (err k).lower) k), T k (shifted names u (fun k => (err k).upper) k)','(fun k => (err k).upper) k), T k (shifted names u (fun k => (err k).lower) k)','ends swapped')
m('C73',F,'ciErrors','(interval.1 - mle, interval.2 - mle)','(mle - interval.1, interval.2 - mle)','lower error sign')
F='Infer/Intensity.lean'
m('C74',F,'addToGroup','(m, v ++ [d.1]) :: g else','(m, v) :: g else','dataset dropped from its group')
m('C74',F,'modelMapping','(d, g.2.headD "")','(d, d)','mapping to itself')
m('C74',F,'interval','(Real.exp i.1, Real.exp i.2)','(i.1, i.2)','log interval reported')
m('C74',F,'interval','fun p => f (E.over p)','fun p => f p','override ignored in bootstrap')
m('C74',F,'report','((y.1 - x) * E.factor','((y.1 - x)','error not converted')
m('C74',F,'intensity','(flux kv.1 (E.over E.mle))\n\n/-- `f\'','(flux kv.1 E.mle)\n\n/-- `f\'','override ignored at the best fit')
m('C74',F,'intensityComps','E.entry intervals se (compKey kv.2 c) c','E.entry intervals se (compKey kv.2 c) kv.1','component label')
F='Infer/Covar.lean'
m('C75',F,'hessCovar','(2 : ℝ) • H⁻¹','H⁻¹','factor two of the deviance')
m('C75',F,'propagate','J * C * Jᵀ','J * (C * C) * Jᵀ','covariance squared')
m('C75',F,'mleCovar','| some C => propagate J C','| some C => propagate J (hessCovar H)','Minuit fallback unused')
m('C75',F,'sampleCov','(xs.length - 1)','xs.length','ddof 0')
m('C75',F,'selectMask','applyMask mask (m.map fun row => applyMask mask row)','applyMask mask m','columns not selected')
m('C75',F,'labelled','fns.map fun _ => true','fns.map fun _ => false','functions dropped')
m('C75',F,'entry','row[r.1.idxOf b]?','row[r.1.idxOf a]?','diagonal only')
m('C75',F,'posteriorCount','10000 - 10000 % dev','10000','not a multiple of devices')
m('C75',F,'bootCount','nValid - nValid % dev','nValid','not a multiple of devices')
F='Models/Settings.lean'
m('C76',F,'setEmax','if Val.le v c.emin then','if Val.lt v c.emin then','emax = emin accepted')
m('C76',F,'setEmin','.ok { c with emin := v }','.ok { c with emax := v }','setter writes emax')
m('C76',F,'Norm.eval','if s.prev = some s.cur then','if s.prev.map (·.emin) = some s.cur.emin then','stale function after changing emax')
m('C76',F,'Norm.eval','| none =>\n    if s.cur.ngrid < 0 then .error .valueError\n    else .ok ({ s with prev := some s.cur, jit','| none =>\n    if s.cur.ngrid < 0 then .error .valueError\n    else .ok ({ s with prev := none, jit','previous settings not stored')
m('C76',F,'parseMethod','if s = "simpson" then .ok .simpson','if s = "simpson" then .ok .trapz','simpson ignored')
m('C76',F,'xsectList','| .tbAbs => ["vern"]','| .tbAbs => ["vern", "bcmc"]','cross section without table')
m('C76',F,'Abs.eval','s.xsect s.abund','s.abund s.xsect','arguments swapped')
m('C76',F,'Abs.init','(abund.getD (defaultAbund k))','(defaultAbund k)','abundance argument ignored')
F='Infer/Resample.lean'
m('C77',F,'call','decide (st.n = n) && sameSeed st.seed r.seed','decide (st.n = n)','seed not compared')
m('C77',F,'call','decide (st.n = n) && sameSeed','sameSeed','number not compared')
m('C77',F,'call','.ok out => .ok (some ⟨n, seedOf dflt r, out⟩)','.ok out => .ok (some ⟨r.n, seedOf dflt r, out⟩)','requested instead of actual number')
m('C77',F,'seedOf','| some q => truncInt q','| some _ => dflt','seed ignored')
m('C77',F,'history','| .error _ => history nDev dflt exec s rs','| .error _ => history nDev dflt exec none rs','failure loses the stored result')
m('C77',F,'gof','| none => .error .runtimeError\n  | some st => .ok (pvalues st.out)','| none => .error .valueError\n  | some st => .ok (pvalues st.out)','wrong exception')
m('C77',F,'pick','kv.2 ij.1 ij.2','kv.2 ij.2 ij.1','chain and draw swapped')
m('C77',F,'ppcRecord','fits.filter valid⟩','fits⟩','invalid fits kept')
m('C78',F,'PlotCache.query','if curId s ≠ s.oldId then [] else s.entries','s.entries','cache never invalidated')
m('C78',F,'PlotCache.query','(⟨s.cur, curId s, (a, v) :: entries⟩, v)','(⟨s.cur, s.oldId, (a, v) :: entries⟩, v)','old id not updated')
m('C78',F,'PlotCache.create','⟨cur, cur.map Prod.fst, []⟩','⟨cur, none, []⟩','old id not initialised')
F='Infer/MaxLike.lean'
m('C79',F,'mergeInit','foldl (fun d x => dictSet d x.1 x.2) default','foldl (fun d x => dictSet d x.1 x.2) []','defaults dropped')
m('C79',F,'argmaxBy','xs.argmax f','xs.argmin f','worst sample')
m('C79',F,'mleStart','else if c.method = "minuit" then (s, .ok init)\n  else (s, .error .valueError)','else (s, .ok init)','unknown method accepted')
m('C79',F,'mle','c.maxSteps.getD 131072','131072','max_steps ignored')
m('C79',F,'optimizeNs','({ s with ns := some none }, .error err)','(s, .error err)','sampler stored only when done (repair: refuted theorem must fail)')
m('C79',F,'optimizeLm','| some old => (s, e.lm old init)','| some _ => (s, e.lm cfg init)','settings not frozen (repair)')
m('C79',F,'NsSample.total','(x.loglike.map List.sum).sum','((x.loglike.headD []).sum)','only first data set')
F='Infer/Kernel.lean'
m('C80',F,'usedTuning','if s.i + 1 ≤ warmup then','if s.i ≤ warmup then','adaptation one step too long')
m('C80',F,'nutsStep','let adapt := if i ≤ warmup then','let adapt := if i < warmup then','last warm-up transition not used for adaptation')
m('C80',F,'nutsStep','tuning := b.adaptFinal adapt','tuning := b.current adapt','final tuning not used')
m('C80',F,'nutsStep','let n := if i ≤ warmup then i else i - warmup','let n := i','mean acceptance not restarted')
m('C80',F,'nutsStep','b.schedule warmup s.i','b.schedule warmup i','schedule off by one')
m('C81',F,'setState','| .sa => if st = .saState then','| .sa => if st = .hmcState then','wrong state accepted')
m('C81',F,'setState','| .ensemble inner => if inner = .ess then','| .ensemble inner => if inner = .aies then','ensemble state of the wrong kernel')
m('C81',F,'startAt','| some t => .strategy t','| some _ => .values (merge none)','strategy ignored')
m('C81',F,'keptDraws','(t + 1) % thinning = 0','t % thinning = 0','thinning keeps the wrong draws')
m('C81',F,'sampleStats','"num_steps" ∈ stats then','"n_steps" ∈ stats then','tree depth recorded (repair)')
F='Infer/Credible.lean'
m('C82',F,'hdi','.argmin (fun i','.argmax (fun i','widest window')
m('C82',F,'hdi','⌊cl * (xs.length : ℝ)⌋₊','⌈cl * (xs.length : ℝ)⌉₊','window size')
m('C82',F,"Credible.mk'",'(i.1 - m, i.2 - m)','(i.2 - m, i.1 - m)','errors swapped')
m('C82',F,'ciParam','let m ← quantile chains.flatten 0.5','let m ← quantile chains.flatten 0','minimum instead of median')
m('C82',F,'paramsDist','if 10000 < chains','if 1000 < chains','subsampling earlier')
F='Infer/LooPit.lean'
m('C83',F,'netValue','| .wstat => (on - c.ratio * off) * c.unit','| .wstat => (on - off) * c.unit','ratio forgotten')
m('C83',F,'observedMinus','max ((c.spec - 1)','min ((c.spec - 1)','minimum')
m('C83',F,'looPit','decide (s.2 ≤ y)','decide (s.2 < y)','strict')
m('C83',F,'pitPair','(looPit sims (observedMinus stat c), looPit sims (observed stat c))','(looPit sims (observed stat c), looPit sims (observedMinus stat c))','pair swapped')
m('C83',F,'looExpectation','Real.sign d.2 *','','sign dropped')
F='Infer/IData.lean'
m('C84',F,'LogLikeSites.parts','(s.name ++ "_Noff", o)','(s.name ++ "_Noff", s.on)','off likelihood is the on likelihood')
m('C84',F,'getLogLike','x.2.sum)','x.2.headD 0)','group total')
m('C84',F,'logLikeGroup','(dictMerge (dictMerge (dictMerge d p) group)','(dictMerge (dictMerge (dictMerge d p) [])','group totals not stored')
m('C84',F,'devianceOf','-2 * v','2 * v','sign')
m('C84',F,'statKey','k ++ "_total" else k','k else k','reads the per-channel entry')
m('C84',F,'essOf','x.1 ≠ "reff"','x.1 = "reff"','filter inverted')
m('C84',F,'relEff','| .mcmc => if chains = 1 then 1 else meanRelative','| .mcmc => meanRelative','single chain')
m('C84',F,'relEff','| .jaxns => ess / draws','| .jaxns => ess','not per draw')
m('C84',F,'relEff','| .nautilus => ess / (([draws] : List Nat).length : ℝ)','| .nautilus => ess / draws','repair: refuted theorem must fail')
m('C84',F,'paretoCounts','good ≤ k ∧ k < 1','good < k ∧ k < 1','k = good counted nowhere')
F='Data/Fwhm.lean'
m('C85',F,'rowArgmax','y ≤ x','x ≤ y','argmin')
m('C85',F,'lowHigh','(idx.getD (k - 1) 0 : Int)','(idx.getD 0 0 : Int)','first instead of nearest index')
m('C85',F,'rowFwhm','row.getD 0 0 ≤ half','row.getD 0 0 < half','boundary')
m('C85',F,'rowFwhm','let half := 0.5 *','let half := 0.25 *','quarter maximum')
m('C85',F,'rowFwhm','if goodHigh != goodLow then f0 * 2 else f0','f0','one-sided width not doubled')
m('C85',F,'rowFwhm','then max f1 1 else -1','then max f1 1 else 0','undefined marked 0')
m('C85',F,'photonBin','- 1) 0) ((nbin','- 0) 0) ((nbin','bin off by one')
m('C85',F,'channelFwhm','(c.1 + c.2) / 2','c.1','low edge instead of midpoint')
F='Grouping/Signif.lean'
json.dump(L,open('/tmp/mut/m5.json','w'),indent=1); print(len(L))
