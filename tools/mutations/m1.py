import json
L=[]
def m(prop,file,d,old,new,claim,**k):
    L.append(dict(id='m1-%02d'%(len(L)+1),prop=prop,file='Verif/'+file,**{'def':d},old=old,new=new,claim=claim,**k))
G='Grouping/Model.lean'; S='Grouping/Scale.lean'; X='Grouping/Signif.lean'
m('C02',G,'groupConst','if r ≠ 0 ∧ k = n - r then -1 else if','if','remainder channels form their own short group')
m('C02',G,'groupConst','k % c = 0 then 1','k % c = 1 then 1','groups start one channel late')
m('C01',G,'minLoop','if n ≤ gc + d then minLoop n (d\'','if n < gc + d then minLoop n (d\'','a group holding exactly n counts is not closed')
m('C01',G,'minLoop','if gc + d < n ∧ 1 < idx.length then idx.tail else idx','idx','last short group not merged')
m('C01',G,'minLoop','(i + 1) 0 ((i + 1) :: idx)','(i + 1) (gc + d) ((i + 1) :: idx)','running count not reset when a group closes')
m('C01',G,'minLoop','((i + 1) :: idx)\n    else minLoop','(i :: idx)\n    else minLoop','group starts one channel early')
m('C01',G,'groupMin','(reduceat data idx).all (fun x => decide (n ≤ x))','true','success always reported')
m('C01',G,'groupMin','if n ≤ 0 then .error .assertionError','if n < 0 then .error .assertionError','scale 0 accepted')
m('C04',G,'firstReach','.map (· + 1)','.map (· + 2)','group extended one channel too far')
m('C04',G,'firstReach','(thr ≤ c)','(thr < c)','exactly reaching threshold does not close group')
m('C04',G,'optMinExtend','sliceSum binCounts i (j + 1)','sliceSum binCounts i j','last channel of candidate not counted')
m('C04',G,'optMinExtend','if cts < n then','if n < cts then','comparison inverted')
m('C03',G,'optWidth','foldl (fun m k => min m (k + bint.getD k 0 - 1)) j','foldl (fun m k => max m (k + bint.getD k 0 - 1)) j','group wider than the optimal width of a later channel')
m('C03',G,'optWidth','min imax (i + bint.getD i 0 - 1)','min imax (i + bint.getD i 0)','group one channel wider than the optimal width')
m('C03',G,'optLoop','| none => if 1 < idx\'.length then idx\'.tail else idx\'','| none => idx\'','short tail kept (opt)')
m('C04',G,'optLoop','| none => if 1 < idx\'.length then idx\'.tail else idx\'','| none => idx\'','short tail kept')
m('C03',G,'optLoop','fuel (j + 1) idx\'','fuel (j + 2) idx\'','a channel is skipped between groups')
m('C04',G,'groupOpt','!((reduceat bc idx).any (fun x => decide (x < n)))','true','success always reported')
m('C04',G,'groupOpt','(fun x => decide (x < n))','(fun x => decide (x ≤ n))','success false for exact counts')
m('C05',G,'greedyLoop','if !(ok start (i + 1)) ∧ 1 < idx.length then idx.tail else idx','idx','tail not merged')
m('C05',G,'greedyLoop','greedyLoop ok (left + 1) (i + 1) (i + 1) ((i + 1) :: idx)','greedyLoop ok (left + 1) (i + 1) start ((i + 1) :: idx)','start of group not moved when group closes')
m('C06',G,'sigExtend','sigExtend ok left i (j + 1)','sigExtend ok left (i + 1) (j + 1)','start moves while extending')
m('C06',G,'sigExtend','if ok i (j + 1) then some j','if ok i j then some j','interval excludes last channel')
m('C08',G,'edges','[(a, size)]','[(a, size - 1)]','last interval misses a channel')
m('C12',S,'groupIdx','(· != -1)','(· == 1)','code 0 channels lose their group start')
m(['C07','C08','C09'],S,'prefixSum','0 :: cumsum values','cumsum values','prefix shifted by one')
m('C08',S,'scaleFromInterval','if nChan = 0 then 1\n','if nChan = 0 then 0\n','empty interval has scale 0')
m('C08',S,'scaleFromInterval','if weightedInv ≠ 0 then counts / weightedInv\n    else\n      let','if weightedInv ≠ 0 then weightedInv / counts\n    else\n      let','harmonic mean inverted in the interval helper')
m('C09',S,'groupedScale','else if weightedInv ≠ 0 then counts / weightedInv\n  else guarded','else if weightedInv ≠ 0 then weightedInv / counts\n  else guarded','harmonic mean inverted')
m('C09',S,'groupedScale','else guardedDiv 1 nChan reciprocal','else guardedDiv 0 nChan reciprocal','zero scale for group with zero reciprocals')
m('C09',S,'groupedScale','if net then guardedDiv 1 scaleSum nChan','if net then guardedDiv 1 nChan scaleSum','mean inverted for net spectra')
m('C07',S,'groupScaleData','let gw := reduceat (mulArr factor weightedInv) idx','let gw := reduceat weightedInv idx','bad channels contribute to the weighted inverse')
m(['C07','C09'],S,'groupScaleData','let gn := reduceat (mulArr factor nChan) idx','let gn := reduceat nChan idx','bad channels counted')
m('C09',S,'groupScaleData','List.zipWith (guardedDiv 0) counts scale)','List.zipWith (· * ·) counts scale)','counts multiplied by scale instead of divided')
m('C09',S,'groupScaleData','if scale.length ≠ n then .error .valueError\n  else if grouping','if grouping','scale length not validated')
m('C08',S,'backRatio1','specExp * specArea * specBack / (backExp * backArea * backBack)','backExp * specArea * specBack / (specExp * backArea * backBack)','exposures swapped in group ratio')
m('C08',S,'intervalBackRatio','* scaleFromInterval specBack start stop\n    / scaleFromInterval backArea start stop','* scaleFromInterval backArea start stop\n    / scaleFromInterval specBack start stop','area/back scale swapped in interval ratio')
m('C10',X,'limaTerms','(1 + a) / a * nOn','(1 + a) * nOn','factor alpha dropped')
m('C10',X,'significanceLima','if a * nOff ≤ nOn then 1 else -1','if nOff ≤ nOn then 1 else -1','sign ignores alpha')
m('C10',X,'significanceLima','Real.sqrt (2 * limaTerms nOn nOff a)','Real.sqrt (limaTerms nOn nOff a)','factor two lost')
m('C11',X,'gvBackground','4 * n * (s * s)','2 * n * (s * s)','discriminant wrong')
m('C11',X,'gvTerms','/ (2 * (s * s))','/ (s * s)','Gaussian penalty doubled')
m('C11',X,'significanceGv','gvTerms n (b * a) (s * a)','gvTerms n (b * a) s','error not scaled by ratio')
m('C05',X,'limaOk','(intervalSum (prefixSum off) a b)','(intervalSum (prefixSum off) a (b+1))','off counts of one more channel')
m('C05',X,'limaSuccess','(d.ratios idx on.length)','(d.ratios idx.tail on.length)','ratios misaligned with groups')
m('C05',X,'limaSuccess','decide (sig ≤ significanceLima p.1 p.2.1 p.2.2)','decide (sig ≤ significanceLima p.2.1 p.1 p.2.2)','on and off swapped in success test')
m('C05',X,'gvOk','(Real.sqrt (intervalSum (prefixSum (s.map fun x => x * x)) i j))','(intervalSum (prefixSum s) i j)','errors added linearly')
m('C05',X,'gvSuccess','(Real.sqrt p.2.2.1)','(p.2.2.1)','variance used as error')
m('C05',X,'normalLoop','if 0 ≤ gc + d - sig * Real.sqrt (gv + e * e) ∧ 0 < gv + e * e','if 0 ≤ gc + d - sig * Real.sqrt (gv + e)','variance uses e instead of e^2')
m('C05',X,'normalSuccess','(error.map fun e => e * e)','error','success test uses errors as variances')
m('C05',X,'groupSigNormal','else if sig ≤ 0 then .error .assertionError\n  else if count','else if count','non-positive significance accepted')
m('C06',X,'groupOptsigLima','(nchan - j) i j','(nchan - j - 1) i j','last channel never tried',all=True)
m('C06',X,'optNormalExtend','fun m => j + (m + 1)','fun m => j + m','extension one channel short')
m('C06',X,'optNormalExtend','if cts - sig * err < 0 ∨ err = 0 then','if cts - sig * err < 0 then','zero error accepted')
m('C03',X,'calcOptimalBinning','if ⌊b⌋ < 1 then 1 else','if ⌊b⌋ < 1 then 0 else','width 0 possible')
m('C03',X,'calcOptimalBinning','fwhm.getD i 0 * shrink','2 * fwhm.getD i 0 * shrink','bins can exceed one FWHM')
json.dump(L,open('/tmp/mut/m1.json','w'),indent=1); print(len(L))
